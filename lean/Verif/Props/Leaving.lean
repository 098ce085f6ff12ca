import Verif.Lemmas.DealerUse
import Verif.Spec.AsNew
/-!
# C165: leaving the dealer is giving up all registrations and leaving then
-/
namespace Wamp.Dealer
variable {w : Str → Str → Bool}

namespace Leaving

/-- A registration object without the list of callees if it is one of `D`. -/
def obj (D : List Nat) (p : Nat) (g : Reg) : Reg := if p ∈ D then { g with callees := [] } else g

/-- The dealer with the lists of callees of the objects `D` emptied. -/
def trim (D : List Nat) (b : State) : State := { b with heap := fun p => obj D p (b.heap p) }

/-- The objects `D` belong to registrations that are gone. -/
def Dead (D : List Nat) (b : State) : Prop := ∀ p ∈ D, p < b.next ∧ (b.heap p).registrants = [] ∧ ∀ t, b.byProc t ≠ some p

theorem obj_registrants (D : List Nat) (p : Nat) (g : Reg) : (obj D p g).registrants = g.registrants := by unfold obj; split <;> rfl
theorem obj_procedure (D : List Nat) (p : Nat) (g : Reg) : (obj D p g).procedure = g.procedure := by unfold obj; split <;> rfl
theorem obj_mtch (D : List Nat) (p : Nat) (g : Reg) : (obj D p g).mtch = g.mtch := by unfold obj; split <;> rfl
theorem obj_id (D : List Nat) (p : Nat) (g : Reg) : (obj D p g).id = g.id := by unfold obj; split <;> rfl
theorem obj_live {D : List Nat} {p : Nat} (h : p ∉ D) (g : Reg) : obj D p g = g := by rw [obj, if_neg h]

theorem trim_hset (D : List Nat) (f : Nat → Reg) (p : Nat) (g : Reg) :
    hset (fun x => obj D x (f x)) p (obj D p g) = fun x => obj D x (hset f p g x) := by
  funext x
  simp only [hset]
  split
  · rename_i e; rw [e]
  · rfl

theorem Dead.live {D : List Nat} {b : State} (h : Dead D b) {t : Str} {p : Nat} (ht : b.byProc t = some p) : p ∉ D :=
  fun c => (h p c).2.2 t ht

theorem Dead.full {D : List Nat} {b : State} (h : Dead D b) {p : Nat} (hr : (b.heap p).registrants.isEmpty = false) : p ∉ D :=
  fun c => by rw [(h p c).2.1] at hr; cases hr

/-- The heap at a dead object is not changed by writing elsewhere. -/
theorem Dead.hset {D : List Nat} {b b' : State} (h : Dead D b) (p : Nat) (g : Reg) (hg : p ∈ D → g.registrants = []) (hh : b'.heap = hset b.heap p g)
    (hn : b.next ≤ b'.next) (hb : ∀ t x, x ∈ D → b'.byProc t = some x → ∃ t', b.byProc t' = some x) : Dead D b' := by
  intro x hx
  obtain ⟨h1, h2, h3⟩ := h x hx
  refine ⟨by omega, ?_, fun t c => ?_⟩
  · rw [hh]
    simp only [Wamp.hset]
    split
    · rename_i e; exact hg (e ▸ hx)
    · exact h2
  · obtain ⟨t', c'⟩ := hb t x hx c
    exact h3 t' c'

theorem Dead.same {D : List Nat} {b b' : State} (h : Dead D b) (hh : b'.heap = b.heap) (hn : b'.next = b.next) (hb : b'.byProc = b.byProc) :
    Dead D b' := by
  intro x hx
  rw [hh, hn, hb]
  exact h x hx

theorem del_sub {m : FMap Str Nat} {k t : Str} {x : Nat} (h : m.del k t = some x) : m t = some x := by
  simp only [FMap.del] at h
  split at h
  · cases h
  · exact h

theorem removeStep_trim {D : List Nat} {b : State} (hd : Dead D b) (s a : Nat) :
    removeStep s (trim D b) a = (removeStep s b a).map (trim D) ∧ ∀ b', removeStep s b a = .ok b' → Dead D b' := by
  unfold removeStep
  simp only [show (trim D b).byProc = b.byProc from rfl, show (trim D b).heap = fun p => obj D p (b.heap p) from rfl, obj_procedure]
  cases ht : b.byProc (b.heap a).procedure with
  | none => exact ⟨rfl, fun b' e => by cases e; exact hd⟩
  | some p =>
    have hp := hd.live ht
    simp only [obj_live hp]
    cases hs : surgery s (b.heap p).callees.length 0 (b.heap p).callees (b.heap p).callees.length with
    | err => exact ⟨rfl, fun b' e => by cases e⟩
    | panic => exact ⟨rfl, fun b' e => by cases e⟩
    | ok cs =>
      simp only [Res.bind_ok, Res.map_ok]
      refine ⟨?_, fun b' e => ?_⟩
      · have := trim_hset D b.heap p { b.heap p with registrants := (b.heap p).registrants.filter (· ≠ s), callees := cs }
        rw [obj_live hp] at this
        rw [this]
        rfl
      · cases e
        refine hd.hset p _ (fun c => absurd c hp) rfl (Nat.le_refl _) fun t x _ hx => ?_
        simp only at hx
        split at hx
        · exact ⟨t, del_sub hx⟩
        · exact ⟨t, hx⟩

theorem removeLoop_trim {D : List Nat} (s : Nat) : ∀ (as : List Nat) {b : State}, Dead D b →
    removeLoop s (trim D b) as = (removeLoop s b as).map (trim D) ∧ ∀ b', removeLoop s b as = .ok b' → Dead D b'
  | [], b, hd => ⟨rfl, fun b' e => by cases e; exact hd⟩
  | a :: as, b, hd => by
    obtain ⟨h1, h2⟩ := removeStep_trim hd s a
    simp only [removeLoop, h1]
    cases hs : removeStep s b a with
    | err => exact ⟨rfl, fun b' e => by cases e⟩
    | panic => exact ⟨rfl, fun b' e => by cases e⟩
    | ok b1 =>
      simp only [Res.map_ok, Res.bind_ok]
      exact removeLoop_trim s as (h2 b1 hs)

theorem lookup_trim {D : List Nat} {b : State} (order : List Str) (p : Str) : lookup w order (trim D b) p = lookup w order b p := by
  unfold lookup
  simp only [show (trim D b).byProc = b.byProc from rfl, show (trim D b).heap = fun p => obj D p (b.heap p) from rfl, obj_registrants]
  rfl

theorem call_trim {D : List Nat} {b : State} (hd : Dead D b) (s q : Nat) (o : GoMap) (p : Str) (as : GoSlice) (kw : GoMap) (bin : Bin)
    (order : List Str) (rnd : Nat) :
    call w (trim D b) s q o p as kw bin order rnd =
      (trim D (call w b s q o p as kw bin order rnd).1, (call w b s q o p as kw bin order rnd).2) ∧
    Dead D (call w b s q o p as kw bin order rnd).1 := by
  unfold call
  rw [lookup_trim]
  cases lookup w order b p with
  | none => exact ⟨rfl, hd⟩
  | some a =>
    simp only [show (trim D b).heap = fun p => obj D p (b.heap p) from rfl, obj_registrants]
    cases hr : (b.heap a).registrants.isEmpty with
    | true => exact ⟨rfl, hd⟩
    | false =>
      have ha := hd.full hr
      simp only [obj_live ha, Bool.false_eq_true, if_false]
      cases pick (b.heap a) rnd with
      | err => exact ⟨rfl, hd⟩
      | panic => exact ⟨rfl, hd⟩
      | ok x =>
        obtain ⟨callee, nc⟩ := x
        have e := trim_hset D b.heap a { b.heap a with nextCallee := nc }
        rw [obj_live ha] at e
        simp only [e]
        simp only [show (trim D b).invByCall = b.invByCall from rfl, show (trim D b).idGen = b.idGen from rfl,
          show (trim D b).pending = b.pending from rfl, show (trim D b).details = b.details from rfl,
          show (trim D b).sessions = b.sessions from rfl]
        have hdd : ∀ x y z, Dead D { b with
            heap := hset b.heap a { b.heap a with nextCallee := nc }
            idGen := x
            pending := y
            invByCall := z } := fun x y z =>
          hd.hset a _ (fun c => absurd c ha) rfl (Nat.le_refl _) fun t x _ hx => ⟨t, hx⟩
        split
        · exact ⟨rfl, hdd _ _ _⟩
        · cases b.sessions callee with
          | none => exact ⟨rfl, hdd _ _ _⟩
          | some c =>
            dsimp only
            split
            · exact ⟨rfl, hdd _ _ _⟩
            · exact ⟨rfl, hdd _ _ _⟩

theorem register_trim {D : List Nat} {b : State} (hd : Dead D b) (s q : Nat) (o : GoMap) (p : Str) :
    register (trim D b) s q o p = (trim D (register b s q o p).1, (register b s q o p).2) ∧ Dead D (register b s q o p).1 := by
  unfold register
  simp only [show (trim D b).byProc = b.byProc from rfl, show (trim D b).bySession = b.bySession from rfl]
  cases b.bySession s with
  | none => exact ⟨rfl, hd⟩
  | some m =>
    cases ht : b.byProc p with
    | some a =>
      have ha := hd.live ht
      simp only [show (trim D b).heap = fun p => obj D p (b.heap p) from rfl, obj_live ha]
      split
      · exact ⟨rfl, hd⟩
      · refine ⟨?_, hd.hset a _ (fun c => absurd c ha) rfl (Nat.le_refl _) fun t x _ hx => ⟨t, hx⟩⟩
        have e := trim_hset D b.heap a { b.heap a with
          registrants := if (b.heap a).registrants.contains s then (b.heap a).registrants else (b.heap a).registrants ++ [s]
          callees := (b.heap a).callees ++ [s] }
        rw [obj_live ha] at e
        rw [e]
        rfl
    | none =>
      have hn : b.next ∉ D := fun c => Nat.lt_irrefl _ (hd _ c).1
      simp only [show (trim D b).heap = fun p => obj D p (b.heap p) from rfl, show (trim D b).next = b.next from rfl,
        show (trim D b).idGen = b.idGen from rfl, show (trim D b).tree = b.tree from rfl, show (trim D b).wc = b.wc from rfl]
      refine ⟨?_, hd.hset b.next _ (fun c => absurd c hn) rfl (Nat.le_succ _) fun t x hx hy => ?_⟩
      · have e := trim_hset D b.heap b.next ⟨(nextID b.idGen).2, p, [s], o.text optInvoke, 0, [s], normMatch (o.text optMatch)⟩
        rw [obj_live hn] at e
        rw [e]
        rfl
      · simp only [FMap.set] at hy
        split at hy
        · cases hy; exact absurd hx hn
        · exact ⟨t, hy⟩

theorem unregister_trim {D : List Nat} {b : State} (hd : Dead D b) (s q i : Nat) :
    unregister (trim D b) s q i = (trim D (unregister b s q i).1, (unregister b s q i).2) ∧ Dead D (unregister b s q i).1 := by
  unfold unregister
  simp only [show (trim D b).bySession = b.bySession from rfl]
  cases b.bySession s with
  | none => exact ⟨rfl, hd⟩
  | some m =>
    dsimp only
    split
    · exact ⟨rfl, hd⟩
    · cases m.get i with
      | none => exact ⟨rfl, hd⟩
      | some a =>
        simp only [show (trim D b).heap = fun p => obj D p (b.heap p) from rfl, obj_registrants, obj_procedure, obj_mtch, obj_id]
        have e := trim_hset D b.heap a { b.heap a with registrants := (b.heap a).registrants.filter (· ≠ s) }
        have e' : obj D a { b.heap a with registrants := (b.heap a).registrants.filter (· ≠ s) } =
            { obj D a (b.heap a) with registrants := (b.heap a).registrants.filter (· ≠ s) } := by
          unfold obj; split <;> rfl
        rw [e'] at e
        simp only [obj_id, obj_procedure, obj_mtch] at e
        rw [e]
        have hz : a ∈ D → (b.heap a).registrants.filter (· ≠ s) = [] := fun c => by rw [(hd a c).2.1]; rfl
        split
        · refine ⟨rfl, hd.hset a _ hz rfl (Nat.le_refl _) fun t x _ hx => ⟨t, del_sub hx⟩⟩
        · exact ⟨rfl, hd.hset a _ hz rfl (Nat.le_refl _) fun t x _ hx => ⟨t, hx⟩⟩

theorem step_trim {D : List Nat} {b : State} (hd : Dead D b) (op : Op) :
    step w (trim D b) op = (trim D (step w b op).1, (step w b op).2) ∧ Dead D (step w b op).1 := by
  cases op with
  | add d =>
    simp only [step, addSession, show (trim D b).sessions = b.sessions from rfl]
    split
    · exact ⟨rfl, hd⟩
    · exact ⟨rfl, hd.same rfl rfl rfl⟩
  | remove s o =>
    simp only [step, removeSession, show (trim D b).sessions = b.sessions from rfl, show (trim D b).bySession = b.bySession from rfl]
    cases b.sessions s with
    | none => exact ⟨rfl, hd⟩
    | some d =>
      obtain ⟨h1, h2⟩ := removeLoop_trim s ((arrange o ((b.bySession s).getD []).keys).filterMap ((b.bySession s).getD []).get) hd
      simp only [h1]
      cases hl : removeLoop s b ((arrange o ((b.bySession s).getD []).keys).filterMap ((b.bySession s).getD []).get) with
      | err => exact ⟨rfl, hd⟩
      | panic => exact ⟨rfl, hd⟩
      | ok b' => exact ⟨rfl, (h2 b' hl).same rfl rfl rfl⟩
  | has p =>
    have e : hasProcedure (trim D b) p = hasProcedure b p := by
      simp only [hasProcedure, show (trim D b).byProc = b.byProc from rfl, show (trim D b).heap = fun p => obj D p (b.heap p) from rfl,
        obj_registrants]
    simp only [step, e]
    exact ⟨trivial, hd⟩
  | disclose on => exact ⟨rfl, hd.same rfl rfl rfl⟩
  | receive s m order rnd =>
    cases m with
    | call r o p a k bin =>
      obtain ⟨h1, h2⟩ := call_trim (w := w) hd s r o p a k bin order rnd
      simp only [step, receive, h1]
      exact ⟨trivial, h2⟩
    | register r o p =>
      obtain ⟨h1, h2⟩ := register_trim hd s r o p
      simp only [step, receive, h1]
      exact ⟨trivial, h2⟩
    | unregister r i =>
      obtain ⟨h1, h2⟩ := unregister_trim hd s r i
      simp only [step, receive, h1]
      exact ⟨trivial, h2⟩
    | yield r o a k bin =>
      simp only [step, receive, yield, show (trim D b).pending = b.pending from rfl, show (trim D b).sessions = b.sessions from rfl]
      cases b.pending.get r with
      | none => exact ⟨rfl, hd⟩
      | some p =>
        dsimp only
        cases b.sessions p.callerID with
        | none =>
          dsimp only
          split
          · exact ⟨rfl, hd⟩
          · exact ⟨rfl, hd.same rfl rfl rfl⟩
        | some c =>
          dsimp only
          split <;> split
          · exact ⟨rfl, hd⟩
          · exact ⟨rfl, hd.same rfl rfl rfl⟩
          · exact ⟨rfl, hd⟩
          · exact ⟨rfl, hd.same rfl rfl rfl⟩
    | error t r d u a k =>
      simp only [step, receive, error, show (trim D b).pending = b.pending from rfl]
      split
      · exact ⟨rfl, hd⟩
      · cases b.pending.get r with
        | none => exact ⟨rfl, hd⟩
        | some p => exact ⟨rfl, hd.same rfl rfl rfl⟩
    | _ => exact ⟨rfl, hd⟩

theorem replies_trim {D : List Nat} : ∀ (ops : List Op) {b : State}, Dead D b → replies w (trim D b) ops = replies w b ops
  | [], _, _ => rfl
  | op :: ops, b, hd => by
    obtain ⟨h1, h2⟩ := step_trim (w := w) hd op
    simp only [replies, h1]
    rw [replies_trim ops h2]

/-- A registration object without the session. -/
def off (s : Nat) (g : Reg) : Reg := { g with registrants := g.registrants.filter (· ≠ s), callees := g.callees.filter (· ≠ s) }

/-- The dealer after the session is taken out of the registrations `P`. -/
def gone (s : Nat) (P : List Nat) (b : State) : State := { b with
  heap := fun p => if p ∈ P then off s (b.heap p) else b.heap p
  byProc := fun t => (b.byProc t).bind fun p => if p ∈ P ∧ (off s (b.heap p)).registrants = [] then none else some p
  wc := b.wc.filter fun e => decide (∀ p ∈ P, (b.heap p).mtch = matchWildcard → (b.heap p).procedure ≠ e.1) }

theorem filter_twice (s : Nat) (l : List Nat) : (l.filter (· ≠ s)).filter (· ≠ s) = l.filter (· ≠ s) := by
  rw [List.filter_filter]
  simp

theorem off_off (s : Nat) (g : Reg) : off s (off s g) = off s g := by
  simp only [off, filter_twice]

theorem del_filter {V : Type} (m : AMap Str V) (k : Str) : m.del k = m.filter fun e => decide (k ≠ e.1) := by
  induction m with
  | nil => rfl
  | cons x m ih =>
    obtain ⟨a, v⟩ := x
    simp only [AMap.del, List.filter_cons, ih]
    by_cases e : k = a
    · subst e; simp
    · simp [e]

/-- What the dealer knows of a session and of its registrations. -/
structure Has (b : State) (s : Nat) (m : AMap Nat Nat) : Prop where
  at_ : (b.sessions s).isSome = true
  mine : b.bySession s = some m
  own : ∀ i a, m.get i = some a → b.byProc (b.heap a).procedure = some a ∧ (b.heap a).id = i ∧ (b.heap a).callees.Nodup ∧
    (b.heap a).callees.filter (· ≠ s) = (b.heap a).registrants.filter (· ≠ s)
  byp : ∀ t a, b.byProc t = some a → a < b.next ∧ (b.heap a).procedure = t

theorem gone_step {b : State} {s : Nat} (P : List Nat) (hb : ∀ t a, b.byProc t = some a → a < b.next ∧ (b.heap a).procedure = t) {a : Nat}
    (ha : b.byProc (b.heap a).procedure = some a) (hn : (b.heap a).callees.Nodup) :
    removeStep s (gone s P b) a = .ok (gone s (a :: P) b) := by
  have hp : ((gone s P b).heap a).procedure = (b.heap a).procedure := by
    show (if a ∈ P then off s (b.heap a) else b.heap a).procedure = _
    split <;> rfl
  have ho : off s ((gone s P b).heap a) = off s (b.heap a) := by
    show off s (if a ∈ P then off s (b.heap a) else b.heap a) = _
    split
    · exact off_off s _
    · rfl
  have hc : ((gone s P b).heap a).callees.Nodup := by
    show (if a ∈ P then off s (b.heap a) else b.heap a).callees.Nodup
    split
    · exact hn.filter _
    · exact hn
  have hq : (gone s P b).byProc (b.heap a).procedure = if a ∈ P ∧ (off s (b.heap a)).registrants = [] then none else some a := by
    show (b.byProc (b.heap a).procedure).bind _ = _
    rw [ha]
    rfl
  unfold removeStep
  rw [hp, hq]
  by_cases hx : a ∈ P ∧ (off s (b.heap a)).registrants = []
  · have hmem : ∀ p, p ∈ a :: P ↔ p ∈ P := fun p => by
      rw [List.mem_cons]
      exact ⟨fun c => c.elim (fun e => e ▸ hx.1) id, .inr⟩
    simp only [if_pos hx, gone, hmem]
  · rw [if_neg hx]
    dsimp only
    rw [surgery_nodup hc]
    show Res.ok ({ gone s P b with
      heap := hset (gone s P b).heap a (off s ((gone s P b).heap a))
      byProc := if (off s ((gone s P b).heap a)).registrants.isEmpty = true then (gone s P b).byProc.del (off s ((gone s P b).heap a)).procedure
        else (gone s P b).byProc
      wc := if (off s ((gone s P b).heap a)).mtch = matchWildcard then AMap.del (gone s P b).wc (off s ((gone s P b).heap a)).procedure
        else (gone s P b).wc } : State) = _
    rw [ho, show (off s (b.heap a)).procedure = (b.heap a).procedure from rfl, show (off s (b.heap a)).mtch = (b.heap a).mtch from rfl]
    have e1 : hset (gone s P b).heap a (off s (b.heap a)) = (gone s (a :: P) b).heap := by
      funext x
      show (if x = a then off s (b.heap a) else if x ∈ P then off s (b.heap x) else b.heap x) =
        if x ∈ a :: P then off s (b.heap x) else b.heap x
      by_cases hxa : x = a
      · subst hxa; simp
      · simp [hxa]
    have e2 : (if (off s (b.heap a)).registrants.isEmpty = true then (gone s P b).byProc.del (b.heap a).procedure else (gone s P b).byProc) =
        (gone s (a :: P) b).byProc := by
      funext t
      have e3 : ∀ p, b.byProc t = some p → (p = a ↔ t = (b.heap a).procedure) := fun p hpt =>
        ⟨fun e => by subst e; exact (hb t p hpt).2.symm, fun e => by rw [e, ha] at hpt; cases hpt; rfl⟩
      show _ = (b.byProc t).bind fun p => if p ∈ a :: P ∧ (off s (b.heap p)).registrants = [] then none else some p
      split
      · rename_i hz
        have hz' : (off s (b.heap a)).registrants = [] := List.isEmpty_iff.1 hz
        simp only [FMap.del]
        split
        · rename_i e
          rw [e, ha]
          simp [hz']
        · rename_i e
          show (b.byProc t).bind _ = _
          cases hpt : b.byProc t with
          | none => rfl
          | some p =>
            have : p ≠ a := fun c => e ((e3 p hpt).1 c)
            simp [this]
      · rename_i hz
        have hz' : ¬(off s (b.heap a)).registrants = [] := fun c => hz (List.isEmpty_iff.2 c)
        show (b.byProc t).bind _ = _
        cases hpt : b.byProc t with
        | none => rfl
        | some p =>
          by_cases hpa : p = a
          · subst hpa; simp [hz']
          · simp [hpa]
    have e4 : (if (b.heap a).mtch = matchWildcard then AMap.del (gone s P b).wc (b.heap a).procedure else (gone s P b).wc) =
        (gone s (a :: P) b).wc := by
      show _ = b.wc.filter fun e => decide (∀ p ∈ a :: P, (b.heap p).mtch = matchWildcard → (b.heap p).procedure ≠ e.1)
      split
      · rename_i e
        rw [del_filter]
        show (b.wc.filter _).filter _ = _
        rw [List.filter_filter]
        congr 1
        funext x
        simp [e]
      · rename_i e
        show b.wc.filter _ = _
        congr 1
        funext x
        simp [e]
    rw [e1, e2, e4]
    rfl

theorem gone_loop {b : State} {s : Nat} (hb : ∀ t a, b.byProc t = some a → a < b.next ∧ (b.heap a).procedure = t) : ∀ (as P : List Nat),
    (∀ a ∈ as, b.byProc (b.heap a).procedure = some a ∧ (b.heap a).callees.Nodup) →
    removeLoop s (gone s P b) as = .ok (gone s (as.reverse ++ P) b)
  | [], P, _ => rfl
  | a :: as, P, h => by
    obtain ⟨h1, h2⟩ := h a List.mem_cons_self
    simp only [removeLoop, gone_step P hb h1 h2, Res.bind_ok]
    rw [gone_loop hb as (a :: P) fun x hx => h x (List.mem_cons_of_mem _ hx)]
    simp

theorem gone_congr {s : Nat} {P P' : List Nat} {b : State} (h : ∀ p, p ∈ P ↔ p ∈ P') : gone s P b = gone s P' b := by
  simp only [gone, h]

theorem gone_nil (s : Nat) (b : State) : gone s [] b = b := by
  have h1 : (fun t => (b.byProc t).bind fun p => if p ∈ ([] : List Nat) ∧ (off s (b.heap p)).registrants = [] then none else some p) = b.byProc := by
    funext t
    cases b.byProc t <;> simp
  have h2 : (b.wc.filter fun e => decide (∀ p ∈ ([] : List Nat), (b.heap p).mtch = matchWildcard → (b.heap p).procedure ≠ e.1)) = b.wc := by
    rw [List.filter_eq_self]
    intro x _
    simp
  simp only [gone, h1, h2]
  simp

/-- The session's registration objects. -/
def ptrs (m : AMap Nat Nat) : List Nat := m.keys.filterMap m.get

theorem mem_ptrs (m : AMap Nat Nat) (a : Nat) : a ∈ ptrs m ↔ ∃ i, m.get i = some a := by
  simp only [ptrs, List.mem_filterMap]
  exact ⟨fun ⟨i, _, h⟩ => ⟨i, h⟩, fun ⟨i, h⟩ => ⟨i, (AMap.mem_keys m i).2 (by rw [h]; rfl), h⟩⟩

theorem Has.remove {b : State} {s : Nat} {m : AMap Nat Nat} (h : Has b s m) (o : List Nat) :
    removeSession b s o =
      ({ gone s (ptrs m) b with bySession := b.bySession.del s, sessions := b.sessions.del s }, .ok ()) := by
  obtain ⟨d, hs⟩ := Option.isSome_iff_exists.1 h.at_
  have hl := gone_loop (s := s) h.byp ((arrange o m.keys).filterMap m.get) [] (fun a ha => by
    obtain ⟨i, -, hi⟩ := List.mem_filterMap.1 ha
    exact ⟨(h.own i a hi).1, (h.own i a hi).2.2.1⟩)
  rw [gone_nil] at hl
  have hc : gone s (((arrange o m.keys).filterMap m.get).reverse ++ []) b = gone s (ptrs m) b := by
    apply gone_congr
    intro p
    simp [ptrs, mem_arrange]
  rw [hc] at hl
  simp only [removeSession, hs, h.mine, Option.getD_some, hl]
  rfl

/-- Giving up one registration and leaving is the same as leaving. -/
theorem one {b : State} {s : Nat} {m : AMap Nat Nat} (h : Has b s m) {i a : Nat} (hg : m.get i = some a) (q : Nat) (o o' : List Nat)
    (later : List Op) :
    ∃ b1 m1, unregister b s q i = (b1, .ok (newUnregistered q, s)) ∧ Has b1 s m1 ∧ (∀ j, j ≠ i → m1.get j = m.get j) ∧
      replies w b1 (.remove s o :: later) = replies w b (.remove s o' :: later) := by
  obtain ⟨ht, hid, hn, hc⟩ := h.own i a hg
  obtain ⟨hlt, -⟩ := h.byp _ a ht
  have hme : m.isEmpty = false := by
    cases m with
    | nil => cases hg
    | cons x m => rfl
  have hx : ∀ g a', a' ≠ a → hset b.heap a g a' = b.heap a' := fun g a' hne => by simp [hset, hne]
  have hxa : ∀ g, hset b.heap a g a = g := fun g => by simp [hset]
  have hpa : a ∈ ptrs m := (mem_ptrs m a).2 ⟨i, hg⟩
  by_cases he : (b.heap a).registrants.filter (· ≠ s) = []
  · -- nobody else holds it
    let b1 : State := { b with
      heap := hset b.heap a { b.heap a with registrants := [] }
      byProc := b.byProc.del (b.heap a).procedure
      wc := if (b.heap a).mtch = matchWildcard then b.wc.del (b.heap a).procedure else b.wc
      bySession := b.bySession.set s (m.del i) }
    have e1 : unregister b s q i = (b1, .ok (newUnregistered q, s)) := by
      simp only [unregister, h.mine, hg, hme, he, Bool.false_eq_true, if_false, List.isEmpty_nil, if_true]
      rfl
    have hgone : ∀ t, b1.byProc t ≠ some a := by
      intro t c
      have c1 : b.byProc t = some a := del_sub c
      have c2 := (h.byp t a c1).2
      have c3 : b1.byProc t = none := by
        show FMap.del b.byProc (b.heap a).procedure t = none
        simp [FMap.del, c2]
      rw [c3] at c
      cases c
    have h1 : Has b1 s (m.del i) := by
      refine ⟨h.at_, ?_, ?_, ?_⟩
      · show FMap.set b.bySession s (m.del i) s = _
        simp [FMap.set]
      · intro j a' hj
        rw [AMap.get_del] at hj
        split at hj
        · cases hj
        · rename_i e
          obtain ⟨h1, h2, h3, h4⟩ := h.own j a' hj
          have hne : a' ≠ a := by
            intro c
            subst c
            exact e (h2.symm.trans hid)
          rw [show b1.heap a' = b.heap a' from hx _ a' hne]
          refine ⟨?_, h2, h3, h4⟩
          show FMap.del b.byProc (b.heap a).procedure _ = _
          simp only [FMap.del]
          split
          · rename_i c
            rw [c, ht] at h1
            cases h1
            exact absurd rfl hne
          · exact h1
      · intro t a' hb
        have hne : a' ≠ a := fun c => hgone t (c ▸ hb)
        rw [show b1.heap a' = b.heap a' from hx _ a' hne]
        exact h.byp t a' (del_sub hb)
    refine ⟨b1, m.del i, e1, h1, fun j hj => by rw [AMap.get_del, if_neg hj], ?_⟩
    have hmp : ∀ p, p ∈ ptrs (m.del i) ↔ p ∈ ptrs m ∧ p ≠ a := by
      intro p
      rw [mem_ptrs, mem_ptrs]
      constructor
      · rintro ⟨j, hj⟩
        rw [AMap.get_del] at hj
        split at hj
        · cases hj
        · rename_i e
          exact ⟨⟨j, hj⟩, fun c => e ((h.own j p hj).2.1.symm.trans (c ▸ hid))⟩
      · rintro ⟨⟨j, hj⟩, hpn⟩
        refine ⟨j, ?_⟩
        rw [AMap.get_del, if_neg]
        · exact hj
        · intro c
          rw [c, hg] at hj
          cases hj
          exact hpn rfl
    have hna : a ∉ ptrs (m.del i) := fun c => ((hmp a).1 c).2 rfl
    have hd : Dead [a] { gone s (ptrs (m.del i)) b1 with bySession := b1.bySession.del s, sessions := b1.sessions.del s } := by
      intro x hxm
      have := List.mem_singleton.1 hxm
      subst this
      refine ⟨hlt, ?_, ?_⟩
      · show (if x ∈ ptrs (m.del i) then off s (b1.heap x) else b1.heap x).registrants = []
        rw [if_neg hna, show b1.heap x = _ from hxa _]
      · intro t c
        have c : (b1.byProc t).bind (fun p => if p ∈ ptrs (m.del i) ∧ (off s (b1.heap p)).registrants = [] then none else some p) = some x := c
        cases hb : b1.byProc t with
        | none => rw [hb] at c; cases c
        | some p =>
          rw [hb] at c
          simp only [Option.bind_some] at c
          split at c
          · cases c
          · cases c
            exact hgone t hb
    have key : trim [a] { gone s (ptrs (m.del i)) b1 with bySession := b1.bySession.del s, sessions := b1.sessions.del s } =
        { gone s (ptrs m) b with bySession := b.bySession.del s, sessions := b.sessions.del s } := by
      have k1 : (fun p => obj [a] p (if p ∈ ptrs (m.del i) then off s (b1.heap p) else b1.heap p)) =
          fun p => if p ∈ ptrs m then off s (b.heap p) else b.heap p := by
        funext p
        by_cases hp : p = a
        · subst hp
          rw [if_neg hna, if_pos hpa, show b1.heap p = _ from hxa _]
          simp only [obj, List.mem_singleton, if_true, off, he, hc]
        · rw [obj_live (by simp [hp]), show b1.heap p = b.heap p from hx _ p hp]
          simp only [hmp, hp, ne_eq, not_false_eq_true, and_true]
      have k2 : (fun t => (b1.byProc t).bind fun p => if p ∈ ptrs (m.del i) ∧ (off s (b1.heap p)).registrants = [] then none else some p) =
          fun t => (b.byProc t).bind fun p => if p ∈ ptrs m ∧ (off s (b.heap p)).registrants = [] then none else some p := by
        funext t
        show (FMap.del b.byProc (b.heap a).procedure t).bind _ = _
        simp only [FMap.del]
        split
        · rename_i e
          rw [e, ht]
          have : (off s (b.heap a)).registrants = [] := he
          simp [hpa, this]
        · rename_i e
          cases hb : b.byProc t with
          | none => rfl
          | some p =>
            have hp : p ≠ a := fun c => e (by rw [← (h.byp t p hb).2, c])
            simp only [Option.bind_some, show b1.heap p = b.heap p from hx _ p hp, hmp, hp, ne_eq, not_false_eq_true, and_true]
      have k3 : (b1.wc.filter fun e => decide (∀ p ∈ ptrs (m.del i), (b1.heap p).mtch = matchWildcard → (b1.heap p).procedure ≠ e.1)) =
          b.wc.filter fun e => decide (∀ p ∈ ptrs m, (b.heap p).mtch = matchWildcard → (b.heap p).procedure ≠ e.1) := by
        have hsame : ∀ e : Str × Nat, (∀ p ∈ ptrs (m.del i), (b1.heap p).mtch = matchWildcard → (b1.heap p).procedure ≠ e.1) ↔
            ∀ p ∈ ptrs m, p ≠ a → (b.heap p).mtch = matchWildcard → (b.heap p).procedure ≠ e.1 := by
          intro e
          constructor
          · intro c p hp hpn
            have := c p ((hmp p).2 ⟨hp, hpn⟩)
            rw [show b1.heap p = b.heap p from hx _ p hpn] at this
            exact this
          · intro c p hp
            obtain ⟨hp1, hp2⟩ := (hmp p).1 hp
            rw [show b1.heap p = b.heap p from hx _ p hp2]
            exact c p hp1 hp2
        have hall : ∀ e : Str × Nat, (∀ p ∈ ptrs m, (b.heap p).mtch = matchWildcard → (b.heap p).procedure ≠ e.1) ↔
            (∀ p ∈ ptrs m, p ≠ a → (b.heap p).mtch = matchWildcard → (b.heap p).procedure ≠ e.1) ∧
              ((b.heap a).mtch = matchWildcard → (b.heap a).procedure ≠ e.1) := by
          intro e
          constructor
          · exact fun c => ⟨fun p hp _ => c p hp, c a hpa⟩
          · rintro ⟨c1, c2⟩ p hp
            by_cases hpa' : p = a
            · subst hpa'; exact c2
            · exact c1 p hp hpa'
        show (if (b.heap a).mtch = matchWildcard then b.wc.del (b.heap a).procedure else b.wc).filter _ = _
        split
        · rename_i hw
          rw [del_filter, List.filter_filter]
          congr 1
          funext e
          rw [← Bool.decide_and, decide_eq_decide, hsame e, hall e]
          exact ⟨fun ⟨c1, c2⟩ => ⟨c1, fun _ => c2⟩, fun ⟨c1, c2⟩ => ⟨c1, c2 hw⟩⟩
        · rename_i hw
          congr 1
          funext e
          rw [decide_eq_decide, hsame e, hall e]
          exact ⟨fun c1 => ⟨c1, fun c => absurd c hw⟩, fun c => c.1⟩
      have k4 : b1.bySession.del s = b.bySession.del s := by
        funext x
        show FMap.del (FMap.set b.bySession s _) s x = _
        simp only [FMap.del, FMap.set]
        split <;> rfl
      show State.mk (fun p => obj [a] p (if p ∈ ptrs (m.del i) then off s (b1.heap p) else b1.heap p)) _ _
        (fun t => (b1.byProc t).bind fun p => if p ∈ ptrs (m.del i) ∧ (off s (b1.heap p)).registrants = [] then none else some p)
        (b1.bySession.del s) _ (b1.wc.filter fun e => decide (∀ p ∈ ptrs (m.del i), (b1.heap p).mtch = matchWildcard → (b1.heap p).procedure ≠ e.1))
        _ _ _ _ = _
      rw [k1, k2, k3, k4]
      rfl
    simp only [replies, step, h1.remove o, h.remove o', Res.map_ok]
    rw [← key, replies_trim (w := w) later hd]
  · -- others hold it too
    let g : Reg := { b.heap a with registrants := (b.heap a).registrants.filter (· ≠ s) }
    let b1 : State := { b with heap := hset b.heap a g }
    have hne : ((b.heap a).registrants.filter (· ≠ s)).isEmpty = false := by
      cases hq : (b.heap a).registrants.filter (· ≠ s) with
      | nil => exact absurd hq he
      | cons x l => rfl
    have e1 : unregister b s q i = (b1, .ok (newUnregistered q, s)) := by
      simp only [unregister, h.mine, hg, hme, hne, Bool.false_eq_true, if_false]
      rfl
    have hpr : ∀ p, (b1.heap p).procedure = (b.heap p).procedure := fun p => by
      by_cases hp : p = a
      · subst hp; rw [show b1.heap p = g from hxa _]
      · rw [show b1.heap p = b.heap p from hx _ p hp]
    have hmt : ∀ p, (b1.heap p).mtch = (b.heap p).mtch := fun p => by
      by_cases hp : p = a
      · subst hp; rw [show b1.heap p = g from hxa _]
      · rw [show b1.heap p = b.heap p from hx _ p hp]
    have hoff : ∀ p, off s (b1.heap p) = off s (b.heap p) := fun p => by
      by_cases hp : p = a
      · subst hp
        rw [show b1.heap p = g from hxa _]
        simp only [off, g, filter_twice]
      · rw [show b1.heap p = b.heap p from hx _ p hp]
    have h1 : Has b1 s m := by
      refine ⟨h.at_, h.mine, fun j a' hj => ?_, fun t a' hb => ?_⟩
      · obtain ⟨h1, h2, h3, h4⟩ := h.own j a' hj
        rw [hpr]
        refine ⟨h1, ?_⟩
        by_cases hp : a' = a
        · subst hp
          rw [show b1.heap a' = g from hxa _]
          exact ⟨h2, h3, by rw [show g.registrants = (b.heap a').registrants.filter (· ≠ s) from rfl, filter_twice]; exact h4⟩
        · rw [show b1.heap a' = b.heap a' from hx _ a' hp]
          exact ⟨h2, h3, h4⟩
      · rw [hpr]
        exact h.byp t a' hb
    refine ⟨b1, m, e1, h1, fun j _ => rfl, ?_⟩
    have key : gone s (ptrs m) b1 = gone s (ptrs m) b := by
      have k1 : (fun p => if p ∈ ptrs m then off s (b1.heap p) else b1.heap p) = fun p => if p ∈ ptrs m then off s (b.heap p) else b.heap p := by
        funext p
        split
        · exact hoff p
        · rename_i hp
          exact hx _ p fun c => hp (c ▸ hpa)
      simp only [gone, hoff, hmt, hpr] at k1 ⊢
      rw [k1]
    simp only [replies, step, h1.remove o, h.remove o', Res.map_ok, key]
    rfl

theorem all {s : Nat} (q : Nat → Nat) (os : Nat → List Str) (rs : Nat → Nat) (o o' : List Nat) (later : List Op) : ∀ (ids : List Nat)
    {b : State} {m : AMap Nat Nat}, ids.Nodup → Has b s m → (∀ i ∈ ids, (m.get i).isSome = true) →
    replies w b (ids.map (fun i => .receive s (.unregister (q i) i) (os i) (rs i)) ++ .remove s o :: later) =
      ids.map (fun i => .ok (.msg (.unregistered (q i)) s)) ++ replies w b (.remove s o' :: later)
  | [], b, m, _, h, _ => by
    simp only [List.map_nil, List.nil_append, replies, step, h.remove o, h.remove o', Res.map_ok]
  | i :: ids, b, m, hn, h, hi => by
    obtain ⟨hni, hn'⟩ := List.nodup_cons.1 hn
    obtain ⟨a, hg⟩ := Option.isSome_iff_exists.1 (hi i List.mem_cons_self)
    obtain ⟨b1, m1, e1, h1, hm, hq⟩ := one (w := w) h hg (q i) o' o' later
    have ih := all q os rs o o' later ids hn' h1 (fun j hj => by
      rw [hm j fun c => hni (c ▸ hj)]
      exact hi j (List.mem_cons_of_mem _ hj))
    rw [hq] at ih
    simp only [List.map_cons, List.cons_append, replies, step, receive, e1, Res.map_ok]
    rw [ih]
    rfl

end Leaving
open Leaving

/-- **C165.** Leaving is the same as giving up any of one's registrations, one after the other, and leaving then: the UNREGISTERs are answered,
and after both all calls return the same, whatever the order in which `RemoveSession` visits the registrations.  Missing: histories in which a
session registered twice for a shared procedure, or gave up a registration that it shares, for which it is false (`C165_leave_refuted`). -/
theorem C165_leave_partial {h : List Event} {b : State} (hh : Hist w h b) (hlen : h.length ≤ 2 ^ 53) (ht : ∀ p, Tame p h) {s : Nat}
    (ha : attached h s) (ids : List Nat) (hn : ids.Nodup) (hi : ∀ i ∈ ids, ∃ p r, regOf h p = some r ∧ r.id = i ∧ s ∈ r.members)
    (q : Nat → Nat) (os : Nat → List Str) (rs : Nat → Nat) (order order' : List Nat) (later : List Op) :
    replies w b (ids.map (fun i => .receive s (.unregister (q i) i) (os i) (rs i)) ++ .remove s order :: later) =
      ids.map (fun i => .ok (.msg (.unregistered (q i)) s)) ++ replies w b (.remove s order' :: later) := by
  have hS := hist_sinv hh
  have hR := hist_rinv hh hlen
  have hH := fun p => hist_hinv hh hlen (ht p).held
  have hT := fun p => hist_tinv hh hlen (ht p)
  obtain ⟨m, hm⟩ : ∃ m, b.bySession s = some m := by
    have := hS.bys s
    rw [ha] at this
    exact Option.isSome_iff_exists.1 this
  have hb : Has b s m := by
    refine ⟨by rw [hS.sess]; exact ha, hm, fun i a hg => ?_, hR.byp⟩
    obtain ⟨h1, h2⟩ := (hT _).ses s m i a hm hg rfl
    obtain ⟨r, k1, -⟩ := (hH _).live a h1
    obtain ⟨l1, l2, l3⟩ := (hT _).cs a r h1 k1
    refine ⟨h1, (hR.sesp s m i a hm hg).2, by rw [l1]; exact l3, by rw [l1, l2]⟩
  refine all q os rs order order' later ids hn hb fun i hx => ?_
  obtain ⟨p, r, k1, k2, k3⟩ := hi i hx
  cases hp : b.byProc p with
  | none => rw [(hH p).dead hp] at k1; cases k1
  | some a =>
    obtain ⟨r', l1, l2, -, -, l5, -⟩ := (hH p).live a hp
    rw [k1] at l1
    cases l1
    obtain ⟨m', n1, n2⟩ := (hH p).held a s hp ((l5 s).2 k3)
    rw [hm] at n1
    cases n1
    rw [← k2, l2, n2]
    rfl

namespace Leaving

/-- `AddSession` for session `n`. -/
def comes (n : Nat) : Op := .add ⟨n, [], [], [], [], false, none, none⟩
/-- REGISTER by `s`. -/
def offers (s : Nat) (p : String) : Op := .receive s (.register 1 none (str p)) [] 0
/-- REGISTER by `s` for sharing round robin. -/
def shares (s : Nat) (p : String) : Op := .receive s (.register 1 (some [(str "invoke", .str (str "roundrobin"))]) (str p)) [] 0
/-- UNREGISTER by `s`. -/
def gives (s i : Nat) : Op := .receive s (.unregister 1 i) [] 0
/-- Whether a call panicked. -/
def crashed : Res Out → Bool | .panic => true | _ => false

end Leaving

/-- Session 1 holds `p` alone under ID 1 and shares `q` with session 2 under ID 2. -/
example : let h := (exec (fun _ _ => false) ([], init) [comes 1, comes 2, offers 1 "p", shares 2 "q", shares 1 "q"]).1
    attached h 1 ∧ (regOf h (str "p")).map (fun r => (r.id, r.members)) = some (1, [1]) ∧
      (regOf h (str "q")).map (fun r => (r.id, r.members)) = some (2, [2, 1]) ∧ ∀ p, Tame p h := by
  refine ⟨by unfold attached; decide +kernel, by decide +kernel, by decide +kernel, fun p => ?_⟩
  refine ⟨?_, ?_, ?_, trivial, trivial, trivial⟩
  all_goals intro e; subst e; decide +kernel

/-- When session 1 registered three times for a procedure that session 2 shared and gave up, removing session 1 panics (C64); if it
unregisters first, nothing panics. -/
theorem C165_leave_refuted :
    let b := (exec (fun _ _ => false) ([], init) [comes 1, comes 2, shares 2 "q", shares 1 "q", shares 1 "q", shares 1 "q", gives 2 1]).2
    (replies (fun _ _ => false) b [.remove 1 []]).map crashed = [true] ∧
    (replies (fun _ _ => false) b [gives 1 1, .remove 1 []]).map crashed = [false, false] := by
  decide +kernel

end Wamp.Dealer
