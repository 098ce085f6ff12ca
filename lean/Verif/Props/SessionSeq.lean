import Verif.Spec.SessionSeq
import Verif.Props.SessionConc
/-!
# C145: concurrent use of a session looks sequential
-/
namespace Wamp.Session

/-- The tables that calls about different requests have in common. -/
private def sh (t : Tab) : Prop := t = .registrations ∨ t = .subscriptions

/-- The table of a kind of request. -/
private def Kind.tab : Kind → Tab
  | .call => .call | .register => .register | .unregister => .unregister | .invocation => .invocation | .publish => .publish
  | .subscribe => .subscribe | .unsubscribe => .unsubscribe

/-- The entry of the request. -/
private def own (op : Op) : Option (Tab × Nat) := op.about.map fun x => (Kind.tab x.1, x.2)

private theorem own_inj {op op' : Op} (h : op.about = none ∨ op.about ≠ op'.about) {x} (h1 : own op = some x) (h2 : own op' = some x) : False := by
  simp only [own, Option.map_eq_some_iff] at h1 h2
  obtain ⟨⟨a, r⟩, h1, rfl⟩ := h1
  obtain ⟨⟨b, q⟩, h2, e⟩ := h2
  simp only [Prod.mk.injEq] at e
  obtain ⟨e1, rfl⟩ := e
  have : b = a := by cases a <;> cases b <;> first | rfl | exact absurd e1 (by decide)
  subst this
  rcases h with h | h
  · rw [h1] at h; cases h
  · exact h (h1.trans h2.symm)

private theorem own_sh {op : Op} {t k} (h : own op = some (t, k)) : ¬sh t := by
  simp only [own, Option.map_eq_some_iff] at h
  obtain ⟨⟨a, r⟩, -, e⟩ := h
  simp only [Prod.mk.injEq] at e
  rw [← e.1]
  cases a <;> simp [sh, Kind.tab]

/-- All operations concern the entry `x`. -/
private def Tail (x : Option (Tab × Nat)) : Prog Bool → Prop
  | .ret _ => True
  | .load t k c => x = some (t, k) ∧ ∀ v, Tail x (c v)
  | .store t k _ c => x = some (t, k) ∧ Tail x c
  | .delete t k c => x = some (t, k) ∧ Tail x c
  | .loadAndDelete t k c => x = some (t, k) ∧ ∀ v, Tail x (c v)

/-- All operations but one concern the entry `x`. -/
private def Head (x : Option (Tab × Nat)) : Prog Bool → Prop
  | .ret _ => True
  | .load t k c => (x = some (t, k) ∧ ∀ v, Head x (c v)) ∨ (sh t ∧ ∀ v, Tail x (c v))
  | .store t k _ c => (x = some (t, k) ∧ Head x c) ∨ (sh t ∧ Tail x c)
  | .delete t k c => (x = some (t, k) ∧ Head x c) ∨ (sh t ∧ Tail x c)
  | .loadAndDelete t k c => (x = some (t, k) ∧ ∀ v, Head x (c v)) ∨ (sh t ∧ ∀ v, Tail x (c v))

private theorem Tail.head {x} : ∀ {p}, Tail x p → Head x p
  | .ret _, _ => trivial
  | .load _ _ _, h => .inl ⟨h.1, fun v => Tail.head (h.2 v)⟩
  | .store _ _ _ _, h => .inl ⟨h.1, Tail.head h.2⟩
  | .delete _ _ _, h => .inl ⟨h.1, Tail.head h.2⟩
  | .loadAndDelete _ _ _, h => .inl ⟨h.1, fun v => Tail.head (h.2 v)⟩

private theorem head_prog (op : Op) : Head (own op) op.prog := by
  cases op with
  | send d m =>
    cases d with
    | err => exact trivial
    | panic => exact trivial
    | ok b =>
      cases m
      case yield r o _ _ _ =>
        simp only [Op.prog, send]
        split <;> simp [Op.prog.go, Head, own, Op.about, Op.about.ofMsg, Kind.tab]
      case publish r o _ _ _ =>
        simp only [Op.prog, send]
        split <;> simp [Op.prog.go, Head, own, Op.about, Op.about.ofMsg, Kind.tab]
      case error t r _ _ _ _ =>
        simp only [Op.prog, send]
        split <;> simp [Op.prog.go, Head, own, Op.about, Kind.tab]
      case unsubscribe r g =>
        simp only [Op.prog, send, Op.prog.go, Head, own, Op.about, Op.about.ofMsg, Kind.tab, Option.map_some]
        refine .inr ⟨by simp [sh], fun v => ?_⟩
        cases v <;> simp [Op.prog.go, Tail]
      all_goals simp [Op.prog, send, Op.prog.go, Head, own, Op.about, Op.about.ofMsg, Kind.tab]
  | recv m =>
    cases m
    case error t r _ _ _ _ =>
      simp only [Op.prog, recv]
      rcases errorTab_cases t with rfl | rfl | rfl | rfl | rfl | rfl | h
      case inr.inr.inr.inr.inr.inr => simp [h, Op.prog.go, Head]
      all_goals
        simp only [errorTab, Op.prog.go, Head, own, Op.about, Kind.tab, Option.map_some]
        refine .inl ⟨by simp, fun v => ?_⟩
        cases v <;> simp [Op.prog.go, Head]
    case result r d _ _ _ =>
      simp only [Op.prog, recv, Op.prog.go, Head, own, Op.about, Op.about.ofMsg, Kind.tab, Option.map_some]
      refine .inl ⟨by simp, fun v => ?_⟩
      cases v with
      | none => simp [Op.prog.go, Head]
      | some v => simp only; split <;> simp [Op.prog.go, Head]
    case registered r g =>
      simp only [Op.prog, recv, Op.prog.go, Head, own, Op.about, Op.about.ofMsg, Kind.tab, Option.map_some]
      refine .inl ⟨by simp, fun v => ?_⟩
      cases v <;> simp [Op.prog.go, Head, Tail, sh]
    case subscribed r g =>
      simp only [Op.prog, recv, Op.prog.go, Head, own, Op.about, Op.about.ofMsg, Kind.tab, Option.map_some]
      refine .inl ⟨by simp, fun v => ?_⟩
      cases v <;> simp [Op.prog.go, Head, Tail, sh]
    case published r g =>
      simp only [Op.prog, recv, Op.prog.go, Head, own, Op.about, Op.about.ofMsg, Kind.tab, Option.map_some]
      refine .inl ⟨by simp, fun v => ?_⟩
      cases v <;> simp [Op.prog.go, Head]
    case unregistered r =>
      simp only [Op.prog, recv, Op.prog.go, Head, own, Op.about, Op.about.ofMsg, Kind.tab, Option.map_some]
      refine .inl ⟨by simp, fun v => ?_⟩
      cases v with
      | none => simp [Op.prog.go, Head]
      | some g =>
        refine .inr ⟨by simp [sh], fun v => ?_⟩
        cases v <;> simp [Op.prog.go, Tail]
    case unsubscribed r =>
      simp only [Op.prog, recv, Op.prog.go, Head, own, Op.about, Op.about.ofMsg, Kind.tab, Option.map_some]
      refine .inl ⟨by simp, fun v => ?_⟩
      cases v with
      | none => simp [Op.prog.go, Head]
      | some g =>
        refine .inr ⟨by simp [sh], fun v => ?_⟩
        cases v <;> simp [Op.prog.go, Tail]
    case invocation r g _ _ _ _ =>
      simp only [Op.prog, recv, Op.prog.go, Head, own, Op.about, Op.about.ofMsg, Kind.tab, Option.map_some]
      refine .inr ⟨by simp [sh], fun v => ?_⟩
      cases v <;> simp [Op.prog.go, Tail]
    case event g _ _ _ _ =>
      simp only [Op.prog, recv, Op.prog.go, Head]
      refine .inr ⟨by simp [sh], fun v => ?_⟩
      cases v <;> simp [Op.prog.go, Tail]
    all_goals simp [Op.prog, recv, Op.prog.go, Head]

/-- One entry replaced. -/
private def upd (s : State) (t : Tab) (k : Nat) (v : Option Nat) : State := fun t' k' => if t' = t ∧ k' = k then v else s t' k'

private theorem upd_same (s : State) (t : Tab) (k : Nat) (v : Option Nat) : upd s t k v t k = v := by simp [upd]
private theorem upd_other {s : State} {t t' : Tab} {k k' : Nat} {v : Option Nat} (h : (t', k') ≠ (t, k)) : upd s t k v t' k' = s t' k' := by
  simp only [upd]; rw [if_neg]; rintro ⟨rfl, rfl⟩; exact h rfl
private theorem upd_upd (s : State) (t : Tab) (k : Nat) (v v' : Option Nat) : upd (upd s t k v) t k v' = upd s t k v' := by
  funext t' k'; simp only [upd]; split <;> rfl
private theorem upd_self {s : State} {t : Tab} {k : Nat} {v : Option Nat} (h : s t k = v) : upd s t k v = s := by
  funext t' k'; simp only [upd]; split
  · rename_i e; rw [e.1, e.2, h]
  · rfl
private theorem put_set (s : State) (t : Tab) (k v : Nat) : s.put t ((s t).set k v) = upd s t k (some v) := by
  funext t' k'; simp only [upd, State.put]; split
  · rename_i e; subst e; simp only [FMap.set, true_and]
  · rename_i e; rw [if_neg (fun h => e h.1)]
private theorem put_del (s : State) (t : Tab) (k : Nat) : s.put t ((s t).del k) = upd s t k none := by
  funext t' k'; simp only [upd, State.put]; split
  · rename_i e; subst e; simp only [FMap.del, true_and]
  · rename_i e; rw [if_neg (fun h => e h.1)]

/-- An operation reads and writes one entry. -/
private theorem micro_key {s s' : State} {p q : Prog Bool} {d : Done} (h : Micro s p s' q d) : ∃ t k,
    s' = upd s t k (s' t k) ∧ (∀ τ : State, τ t k = s t k → p.run τ = q.run (upd τ t k (s' t k))) ∧
    (∀ x, Head x p → (x = some (t, k) ∧ Head x q) ∨ (sh t ∧ Tail x q)) ∧ (∀ x, Tail x p → x = some (t, k) ∧ Tail x q) := by
  cases h with
  | load t k c =>
    refine ⟨t, k, (upd_self rfl).symm, fun τ h => ?_, ?_, ?_⟩
    · rw [upd_self h]; simp only [Prog.run, h]
    · rintro x (h | h)
      · exact .inl ⟨h.1, h.2 _⟩
      · exact .inr ⟨h.1, h.2 _⟩
    · exact fun x h => ⟨h.1, h.2 _⟩
  | store t k v c =>
    rw [put_set]
    refine ⟨t, k, by rw [upd_same], fun τ h => ?_, ?_, ?_⟩
    · simp only [Prog.run, put_set, upd_same]
    · rintro x (h | h)
      · exact .inl h
      · exact .inr h
    · exact fun x h => h
  | delete t k c =>
    rw [put_del]
    refine ⟨t, k, by rw [upd_same], fun τ h => ?_, ?_, ?_⟩
    · simp only [Prog.run, put_del, upd_same]
    · rintro x (h | h)
      · exact .inl h
      · exact .inr h
    · exact fun x h => h
  | loadAndDelete t k c =>
    rw [put_del]
    refine ⟨t, k, by rw [upd_same], fun τ h => ?_, ?_, ?_⟩
    · simp only [Prog.run, put_del, upd_same, h]
    · rintro x (h | h)
      · exact .inl ⟨h.1, h.2 _⟩
      · exact .inr ⟨h.1, h.2 _⟩
    · exact fun x h => ⟨h.1, h.2 _⟩

/-- Agreement on the entry `x` and on the common tables. -/
private def Agree (x : Option (Tab × Nat)) (s σ : State) : Prop := (∀ t k, sh t → s t k = σ t k) ∧ ∀ t k, x = some (t, k) → s t k = σ t k

private theorem agree_upd {x} {s σ : State} (h : Agree x s σ) (t k v) : Agree x (upd s t k v) (upd σ t k v) := by
  refine ⟨fun t' k' h' => ?_, fun t' k' h' => ?_⟩ <;> simp only [upd] <;> split
  · rfl
  · exact h.1 _ _ h'
  · rfl
  · exact h.2 _ _ h'

private theorem head_congr {x} : ∀ {p : Prog Bool} {s σ : State}, Head x p → Agree x s σ → Agree x (p.run s).1 (p.run σ).1 ∧ (p.run s).2 = (p.run σ).2
  | .ret _, _, _, _, ha => ⟨ha, rfl⟩
  | .load t k c, s, σ, h, ha => by
    simp only [Prog.run]
    rcases h with h | h
    · rw [ha.2 t k h.1]; exact head_congr (h.2 _) ha
    · rw [ha.1 t k h.1]; exact head_congr (h.2 _).head ha
  | .store t k v c, s, σ, h, ha => by
    simp only [Prog.run, put_set]
    rcases h with h | h
    · exact head_congr h.2 (agree_upd ha _ _ _)
    · exact head_congr h.2.head (agree_upd ha _ _ _)
  | .delete t k c, s, σ, h, ha => by
    simp only [Prog.run, put_del]
    rcases h with h | h
    · exact head_congr h.2 (agree_upd ha _ _ _)
    · exact head_congr h.2.head (agree_upd ha _ _ _)
  | .loadAndDelete t k c, s, σ, h, ha => by
    simp only [Prog.run, put_del]
    rcases h with h | h
    · rw [ha.2 t k h.1]; exact head_congr (h.2 _) (agree_upd ha _ _ _)
    · rw [ha.1 t k h.1]; exact head_congr (h.2 _).head (agree_upd ha _ _ _)

/-- Other entries are not touched. -/
private theorem head_frame {x} {t' : Tab} {k' : Nat} (hx : x ≠ some (t', k')) (hs : ¬sh t') : ∀ {p : Prog Bool} {s : State}, Head x p → (p.run s).1 t' k' = s t' k'
  | .ret _, _, _ => rfl
  | .load t k c, s, h => by
    simp only [Prog.run]
    rcases h with h | h
    · exact head_frame hx hs (h.2 _)
    · exact head_frame hx hs (h.2 _).head
  | .store t k v c, s, h => by
    simp only [Prog.run, put_set]
    rcases h with h | h
    · rw [head_frame hx hs h.2, upd_other (fun e => hx (by rw [h.1, e]))]
    · rw [head_frame hx hs h.2.head, upd_other (fun e => hs (by cases e; exact h.1))]
  | .delete t k c, s, h => by
    simp only [Prog.run, put_del]
    rcases h with h | h
    · rw [head_frame hx hs h.2, upd_other (fun e => hx (by rw [h.1, e]))]
    · rw [head_frame hx hs h.2.head, upd_other (fun e => hs (by cases e; exact h.1))]
  | .loadAndDelete t k c, s, h => by
    simp only [Prog.run, put_del]
    rcases h with h | h
    · rw [head_frame hx hs (h.2 _), upd_other (fun e => hx (by rw [h.1, e]))]
    · rw [head_frame hx hs (h.2 _).head, upd_other (fun e => hs (by cases e; exact h.1))]

private theorem tail_frame {x} {t' : Tab} {k' : Nat} (hx : x ≠ some (t', k')) : ∀ {p : Prog Bool} {s : State}, Tail x p → (p.run s).1 t' k' = s t' k'
  | .ret _, _, _ => rfl
  | .load t k c, s, h => by simp only [Prog.run]; exact tail_frame hx (h.2 _)
  | .store t k v c, s, h => by simp only [Prog.run, put_set]; rw [tail_frame hx h.2, upd_other (fun e => hx (by rw [h.1, e]))]
  | .delete t k c, s, h => by simp only [Prog.run, put_del]; rw [tail_frame hx h.2, upd_other (fun e => hx (by rw [h.1, e]))]
  | .loadAndDelete t k c, s, h => by simp only [Prog.run, put_del]; rw [tail_frame hx (h.2 _), upd_other (fun e => hx (by rw [h.1, e]))]

private theorem tail_congr {x} : ∀ {p : Prog Bool} {s σ : State}, Tail x p → (∀ t k, x = some (t, k) → s t k = σ t k) →
    (∀ t k, x = some (t, k) → (p.run s).1 t k = (p.run σ).1 t k) ∧ (p.run s).2 = (p.run σ).2
  | .ret _, _, _, _, ha => ⟨ha, rfl⟩
  | .load t k c, s, σ, h, ha => by
    simp only [Prog.run]
    rw [ha t k h.1]; exact tail_congr (h.2 _) ha
  | .store t k v c, s, σ, h, ha => by
    simp only [Prog.run, put_set]
    refine tail_congr h.2 fun t' k' e => ?_
    simp only [upd]; split
    · rfl
    · exact ha _ _ e
  | .delete t k c, s, σ, h, ha => by
    simp only [Prog.run, put_del]
    refine tail_congr h.2 fun t' k' e => ?_
    simp only [upd]; split
    · rfl
    · exact ha _ _ e
  | .loadAndDelete t k c, s, σ, h, ha => by
    simp only [Prog.run, put_del]
    rw [ha t k h.1]
    refine tail_congr (h.2 _) fun t' k' e => ?_
    simp only [upd]; split
    · rfl
    · exact ha _ _ e

/-- Before its decisive operation: what is left of the program does to the tables what the whole program does to the sequential state. -/
private def Before (x : Option (Tab × Nat)) (s σ : State) (p rest : Prog Bool) : Prop :=
  ∀ s' σ' : State, (∀ t k, x = some (t, k) → s' t k = s t k) → (∀ t k, x = some (t, k) → σ' t k = σ t k) → (∀ t k, sh t → s' t k = σ' t k) →
    Agree x (p.run s').1 (rest.run σ').1 ∧ (p.run s').2 = (rest.run σ').2

/-- After it: only the entry of the request may still differ. -/
private def After (x : Option (Tab × Nat)) (s σ : State) (rest : Prog Bool) (b : Bool) : Prop :=
  Tail x rest ∧ (∀ t k, x = some (t, k) → s t k = (rest.run σ).1 t k) ∧ b = (rest.run σ).2

private theorem Before.congr {x} {s σ s1 σ1 : State} {p rest} (h : Before x s σ p rest) (h1 : ∀ t k, x = some (t, k) → s1 t k = s t k)
    (h2 : ∀ t k, x = some (t, k) → σ1 t k = σ t k) : Before x s1 σ1 p rest := fun s' σ' a b c =>
  h s' σ' (fun t k e => (a t k e).trans (h1 t k e)) (fun t k e => (b t k e).trans (h2 t k e)) c

private theorem After.congr {x} {s σ s1 σ1 : State} {rest b} (h : After x s σ rest b) (h1 : ∀ t k, x = some (t, k) → s1 t k = s t k)
    (h2 : ∀ t k, x = some (t, k) → σ1 t k = σ t k) : After x s1 σ1 rest b := by
  have := tail_congr h.1 h2
  exact ⟨h.1, fun t k e => by rw [h1 t k e, h.2.1 t k e, this.1 t k e], by rw [h.2.2, this.2]⟩

/-- Where a call stands. -/
private def Status (l : List (Nat × Event)) (s σ : State) (i : Nat) (th : Thread) : Prop :=
  (i ∉ l.map Prod.fst ∧ (∀ b, th.rest ≠ .ret b) ∧ Head (own th.op) th.rest ∧ Before (own th.op) s σ th.op.prog th.rest) ∨
  (∃ e, (i, e) ∈ l ∧ e.op = th.op ∧ (∀ b, th.rest ≠ .ret b) ∧ After (own th.op) s σ th.rest e.ok) ∨
  (∃ e, (i, e) ∈ l ∧ e.op = th.op ∧ th.rest = .ret e.ok)

private structure SInv (c : Cfg) (cs : List Cfg) (l : List (Nat × Event)) (s : State) : Prop where
  hist : Hist (l.map Prod.snd) s
  once : (l.map Prod.fst).Nodup
  idx : ∀ i e, (i, e) ∈ l → ∃ th, c.calls[i]? = some th ∧ th.op = e.op
  common : ∀ t k, sh t → s t k = c.tabs t k
  priv : ∀ t k, ¬sh t → (∀ (i : Nat) (th : Thread), c.calls[i]? = some th → (∀ b, th.rest ≠ .ret b) → own th.op ≠ some (t, k)) → s t k = c.tabs t k
  status : ∀ i th, c.calls[i]? = some th → Status l s c.tabs i th
  past : ∀ c' ∈ c :: cs, ∀ i b, c'.returned i b → i ∈ l.map Prod.fst
  order : ∀ c' ∈ c :: cs, ∀ i j b, c'.returned i b → c'.calls.length ≤ j → j ∈ l.map Prod.fst →
    ∃ l1 l2, l = l1 ++ l2 ∧ j ∈ l1.map Prod.fst ∧ i ∈ l2.map Prod.fst

/-- Statuses of calls that the step does not concern. -/
private theorem Status.other {l l' : List (Nat × Event)} {s s1 σ σ1 : State} {i : Nat} {th : Thread} (h : Status l s σ i th)
    (hl : ∀ e, (i, e) ∈ l → (i, e) ∈ l') (hl' : i ∈ l'.map Prod.fst → i ∈ l.map Prod.fst)
    (hx : (∀ b, th.rest ≠ .ret b) → ∀ t k, own th.op = some (t, k) → s1 t k = s t k ∧ σ1 t k = σ t k) : Status l' s1 σ1 i th := by
  rcases h with ⟨a, b, c, d⟩ | ⟨e, a, b, c, d⟩ | ⟨e, a, b, c⟩
  · exact .inl ⟨fun h => a (hl' h), b, c, d.congr (fun t k e => (hx b t k e).1) (fun t k e => (hx b t k e).2)⟩
  · exact .inr (.inl ⟨e, hl e a, b, c, d.congr (fun t k e => (hx c t k e).1) (fun t k e => (hx c t k e).2)⟩)
  · exact .inr (.inr ⟨e, hl e a, b, c⟩)

/-- The order of calls when the sequence grows (or not). -/
private theorem SInv.grow {c c' : Cfg} {cs : List Cfg} {l : List (Nat × Event)} {s : State} (hi : SInv c cs l s) (l0 : List (Nat × Event))
    (hlen : ∀ i, i ∈ (l0 ++ l).map Prod.fst → i < c'.calls.length)
    (hfin : ∀ i b, c'.returned i b → i ∈ (l0 ++ l).map Prod.fst) :
    (∀ c'' ∈ c' :: c :: cs, ∀ i b, c''.returned i b → i ∈ (l0 ++ l).map Prod.fst) ∧
    (∀ c'' ∈ c' :: c :: cs, ∀ i j b, c''.returned i b → c''.calls.length ≤ j → j ∈ (l0 ++ l).map Prod.fst →
      ∃ l1 l2, l0 ++ l = l1 ++ l2 ∧ j ∈ l1.map Prod.fst ∧ i ∈ l2.map Prod.fst) := by
  refine ⟨fun c'' hc i b h => ?_, fun c'' hc i j b h hj hm => ?_⟩
  · rcases List.mem_cons.1 hc with rfl | hc
    · exact hfin i b h
    · rw [List.map_append]; exact List.mem_append_right _ (hi.past c'' hc i b h)
  · rcases List.mem_cons.1 hc with rfl | hc
    · exact absurd (hlen j hm) (Nat.not_lt.2 hj)
    · rw [List.map_append, List.mem_append] at hm
      rcases hm with hm | hm
      · exact ⟨l0, l, rfl, hm, hi.past c'' hc i b h⟩
      · obtain ⟨l1, l2, e, h1, h2⟩ := hi.order c'' hc i j b h hj hm
        exact ⟨l0 ++ l1, l2, by rw [e, List.append_assoc], by rw [List.map_append]; exact List.mem_append_right _ h1, h2⟩

private theorem start_inv {s0 : State} {calls : List Thread} {op : Op} {cs : List Cfg} {l : List (Nat × Event)} {s : State}
    (hi : SInv ⟨s0, calls⟩ cs l s) (ha : Apart (⟨s0, calls ++ [⟨op, op.prog, []⟩]⟩ :: ⟨s0, calls⟩ :: cs)) :
    ∃ l' s', SInv ⟨s0, calls ++ [⟨op, op.prog, []⟩]⟩ (⟨s0, calls⟩ :: cs) l' s' := by
  have hlt : ∀ i, i ∈ l.map Prod.fst → i < calls.length := by
    intro i h
    obtain ⟨⟨j, e⟩, hj, rfl⟩ := List.mem_map.1 h
    obtain ⟨th, h, -⟩ := hi.idx j e hj
    exact (List.getElem?_eq_some_iff.1 h).1
  have hold : ∀ {i : Nat} {th : Thread}, calls[i]? = some th → (calls ++ [⟨op, op.prog, []⟩])[i]? = some th := fun {i th} h => by
    rw [List.getElem?_append_left (List.getElem?_eq_some_iff.1 h).1]; exact h
  have hnew : (calls ++ [⟨op, op.prog, []⟩])[calls.length]? = some ⟨op, op.prog, []⟩ := by simp
  have hcases : ∀ {i : Nat} {th : Thread}, (calls ++ [⟨op, op.prog, []⟩])[i]? = some th → calls[i]? = some th ∨ (i = calls.length ∧ th = ⟨op, op.prog, []⟩) := by
    intro i th h
    rcases Nat.lt_trichotomy i calls.length with hlt | heq | hgt
    · left; rw [List.getElem?_append_left hlt] at h; exact h
    · right; subst heq; rw [hnew] at h; exact ⟨rfl, (Option.some.inj h).symm⟩
    · rw [List.getElem?_eq_none (by simp; omega)] at h; cases h
  by_cases hret : ∃ b, op.prog = .ret b
  · obtain ⟨b, hb⟩ := hret
    have hrun : op.prog.run s = (s, b) := by rw [hb]; rfl
    have hg := hi.grow (c' := ⟨s0, calls ++ [⟨op, op.prog, []⟩]⟩) [(calls.length, ⟨op, b⟩)] (by
        intro i h
        rcases List.mem_cons.1 h with rfl | h
        · simp
        · have := hlt i h; simp; omega) (by
        rintro i b' ⟨th, h, hr⟩
        rcases hcases h with h | ⟨rfl, rfl⟩
        · exact List.mem_cons_of_mem _ (hi.past _ List.mem_cons_self i b' ⟨th, h, hr⟩)
        · exact List.mem_cons_self)
    refine ⟨(calls.length, ⟨op, b⟩) :: l, s, ?_, ?_, ?_, hi.common, ?_, ?_, hg.1, hg.2⟩
    · have := Hist.step op hi.hist
      rw [hrun] at this; exact this
    · exact List.nodup_cons.2 ⟨fun h => Nat.lt_irrefl _ (hlt _ h), hi.once⟩
    · intro i e h
      rcases List.mem_cons.1 h with h | h
      · cases h; exact ⟨_, hnew, rfl⟩
      · obtain ⟨th, h1, h2⟩ := hi.idx i e h
        exact ⟨th, hold h1, h2⟩
    · intro t k ht h
      exact hi.priv t k ht fun i th h1 h2 => h i th (hold h1) h2
    · intro i th h
      rcases hcases h with h | ⟨rfl, rfl⟩
      · refine (hi.status i th h).other (fun e h => List.mem_cons_of_mem _ h) (fun h' => ?_) (fun _ _ _ _ => ⟨rfl, rfl⟩)
        rcases List.mem_cons.1 h' with rfl | h'
        · exact absurd (List.getElem?_eq_some_iff.1 h).1 (Nat.lt_irrefl _)
        · exact h'
      · exact .inr (.inr ⟨_, List.mem_cons_self, rfl, hb⟩)
  · have hret : ∀ b, op.prog ≠ .ret b := fun b h => hret ⟨b, h⟩
    have hg := hi.grow (c' := ⟨s0, calls ++ [⟨op, op.prog, []⟩]⟩) [] (by
        intro i h
        have := hlt i h; simp; omega) (by
        rintro i b' ⟨th, h, hr⟩
        rcases hcases h with h | ⟨rfl, rfl⟩
        · exact hi.past _ List.mem_cons_self i b' ⟨th, h, hr⟩
        · exact absurd hr (hret b'))
    refine ⟨l, s, hi.hist, hi.once, ?_, hi.common, ?_, ?_, hg.1, hg.2⟩
    · intro i e h
      obtain ⟨th, h1, h2⟩ := hi.idx i e h
      exact ⟨th, hold h1, h2⟩
    · intro t k ht h
      exact hi.priv t k ht fun i th h1 h2 => h i th (hold h1) h2
    · intro i th h
      rcases hcases h with h | ⟨rfl, rfl⟩
      · exact (hi.status i th h).other (fun e h => h) (fun h => h) (fun _ _ _ _ => ⟨rfl, rfl⟩)
      · refine .inl ⟨fun h => Nat.lt_irrefl _ (hlt _ h), hret, head_prog op, ?_⟩
        intro s' σ' h1 h2 h3
        refine head_congr (head_prog op) ⟨h3, fun t k e => ?_⟩
        rw [h1 t k e, h2 t k e]
        refine hi.priv t k (own_sh e) fun j th hj hr e' => ?_
        have hne : j ≠ calls.length := fun h => by subst h; exact Nat.lt_irrefl _ (List.getElem?_eq_some_iff.1 hj).1
        exact own_inj (ha _ List.mem_cons_self j calls.length th ⟨op, op.prog, []⟩ hne (hold hj) hnew hr hret) e' e

private theorem micro_inv {s0 s0' : State} {pre post : List Thread} {th : Thread} {rest : Prog Bool} {d : Done} {cs : List Cfg} {l : List (Nat × Event)}
    {s : State} (hm : Micro s0 th.rest s0' rest d) (hi : SInv ⟨s0, pre ++ th :: post⟩ cs l s) (ha : Apart (⟨s0, pre ++ th :: post⟩ :: cs)) :
    ∃ l' s', SInv ⟨s0', pre ++ ⟨th.op, rest, d :: th.done⟩ :: post⟩ (⟨s0, pre ++ th :: post⟩ :: cs) l' s' := by
  obtain ⟨t, k, hupd, hrun, hhead, htail⟩ := micro_key hm
  have hnr : ∀ b, th.rest ≠ .ret b := by intro b h; rw [h] at hm; cases hm
  have hrun0 : th.rest.run s0 = rest.run s0' := by rw [hrun s0 rfl, ← hupd]
  have hσ : ∀ t' k', (t', k') ≠ (t, k) → s0' t' k' = s0 t' k' := by
    intro t' k' h
    rw [hupd, upd_other h]
  have hthis : (pre ++ th :: post)[pre.length]? = some th := by simp
  have hthis' : (pre ++ (⟨th.op, rest, d :: th.done⟩ : Thread) :: post)[pre.length]? = some ⟨th.op, rest, d :: th.done⟩ := by simp
  have hoth : ∀ {i : Nat}, i ≠ pre.length → (pre ++ (⟨th.op, rest, d :: th.done⟩ : Thread) :: post)[i]? = (pre ++ th :: post)[i]? := by
    intro i h
    rcases Nat.lt_or_gt_of_ne h with h | h
    · rw [List.getElem?_append_left h, List.getElem?_append_left h]
    · rw [List.getElem?_append_right (by omega), List.getElem?_append_right (by omega)]
      obtain ⟨n, hn⟩ : ∃ n, i - pre.length = n + 1 := ⟨i - pre.length - 1, by omega⟩
      rw [hn]; rfl
  have hidx : ∀ i e, (i, e) ∈ l → ∃ th', (pre ++ (⟨th.op, rest, d :: th.done⟩ : Thread) :: post)[i]? = some th' ∧ th'.op = e.op := by
    intro i e h
    obtain ⟨th', h1, h2⟩ := hi.idx i e h
    by_cases he : i = pre.length
    · subst he; rw [hthis] at h1; cases h1; exact ⟨_, hthis', h2⟩
    · exact ⟨th', by rw [hoth he]; exact h1, h2⟩
  have hlt : ∀ i, i ∈ l.map Prod.fst → i < (pre ++ (⟨th.op, rest, d :: th.done⟩ : Thread) :: post).length := by
    intro i h
    obtain ⟨⟨j, e⟩, hj, rfl⟩ := List.mem_map.1 h
    obtain ⟨th, h, -⟩ := hidx j e hj
    exact (List.getElem?_eq_some_iff.1 h).1
  -- calls in progress have other entries
  have hdiff : ∀ {i : Nat} {th' : Thread}, i ≠ pre.length → (pre ++ th :: post)[i]? = some th' → (∀ b, th'.rest ≠ .ret b) → ∀ x, own th'.op = some x → own th.op ≠ some x := by
    intro i th' hne h hr x e1 e2
    exact own_inj (ha _ List.mem_cons_self i pre.length th' th hne h hthis hr hnr) e1 e2
  have hkey : own th.op = some (t, k) ∨ sh t := by
    rcases hi.status _ _ hthis with ⟨-, -, hH, -⟩ | ⟨e, -, -, -, hA⟩ | ⟨e, -, -, h⟩
    · rcases hhead _ hH with h | h
      · exact .inl h.1
      · exact .inr h.1
    · exact .inl (htail _ hA.1).1
    · exact absurd h (hnr _)
  have hσoth : ∀ {i : Nat} {th' : Thread}, i ≠ pre.length → (pre ++ th :: post)[i]? = some th' → (∀ b, th'.rest ≠ .ret b) → ∀ t' k', own th'.op = some (t', k') →
      s0' t' k' = s0 t' k' := by
    intro i th' hne h hr t' k' e
    refine hσ t' k' fun e' => ?_
    rcases hkey with hk | hk
    · exact hdiff hne h hr _ e (by rw [e']; exact hk)
    · cases e'; exact own_sh e hk
  -- the tail of the proof when the call takes effect now
  have lin : pre.length ∉ l.map Prod.fst → Before (own th.op) s s0 th.op.prog th.rest → Tail (own th.op) rest →
      (∀ t' k', sh t' → (rest.run s0').1 t' k' = s0' t' k') →
      ∃ l' s', SInv ⟨s0', pre ++ ⟨th.op, rest, d :: th.done⟩ :: post⟩ (⟨s0, pre ++ th :: post⟩ :: cs) l' s' := by
    intro hni hB hT hsh
    obtain ⟨⟨hag1, hag2⟩, hres⟩ := hB s s0 (fun _ _ _ => rfl) (fun _ _ _ => rfl) hi.common
    rw [hrun0] at hag1 hag2 hres
    have hfr : ∀ t' k', own th.op ≠ some (t', k') → ¬sh t' → (th.op.prog.run s).1 t' k' = s t' k' := fun t' k' h1 h2 => head_frame h1 h2 (head_prog th.op)
    have hg := hi.grow (c' := ⟨s0', pre ++ ⟨th.op, rest, d :: th.done⟩ :: post⟩) [(pre.length, ⟨th.op, (th.op.prog.run s).2⟩)] (by
        intro i h
        rcases List.mem_cons.1 h with rfl | h
        · simp
        · exact hlt i h) (by
        rintro i b' ⟨th', h, hr⟩
        by_cases he : i = pre.length
        · subst he; exact List.mem_cons_self
        · rw [hoth he] at h
          exact List.mem_cons_of_mem _ (hi.past _ List.mem_cons_self i b' ⟨th', h, hr⟩))
    refine ⟨(pre.length, ⟨th.op, (th.op.prog.run s).2⟩) :: l, (th.op.prog.run s).1, Hist.step th.op hi.hist, List.nodup_cons.2 ⟨hni, hi.once⟩, ?_, ?_, ?_, ?_, hg.1, hg.2⟩
    · intro i e h
      rcases List.mem_cons.1 h with h | h
      · cases h; exact ⟨_, hthis', rfl⟩
      · exact hidx i e h
    · intro t' k' h
      exact (hag1 t' k' h).trans (hsh t' k' h)
    · intro t' k' ht h
      by_cases hx : own th.op = some (t', k')
      · -- this call has returned
        rw [hag2 t' k' hx]
        by_cases hr : ∃ b, rest = .ret b
        · obtain ⟨b, rfl⟩ := hr; rfl
        · exact absurd hx (h pre.length ⟨th.op, rest, d :: th.done⟩ hthis' fun b h => hr ⟨b, h⟩)
      · rw [hfr t' k' hx ht, hi.priv t' k' ht ?_]
        · refine (hσ t' k' fun e => ?_).symm
          rcases hkey with hk | hk
          · exact hx (by rw [e]; exact hk)
          · cases e; exact ht hk
        · intro i th' h1 h2
          by_cases he : i = pre.length
          · subst he; rw [hthis] at h1; cases h1; exact hx
          · exact h i th' (by rw [hoth he]; exact h1) h2
    · intro i th' h
      by_cases he : i = pre.length
      · subst he
        rw [hthis'] at h; cases h
        by_cases hr : ∃ b, rest = .ret b
        · obtain ⟨b, rfl⟩ := hr
          exact .inr (.inr ⟨_, List.mem_cons_self, rfl, by simp only [hres]; rfl⟩)
        · exact .inr (.inl ⟨_, List.mem_cons_self, rfl, fun b h => hr ⟨b, h⟩, hT, hag2, hres⟩)
      · rw [hoth he] at h
        refine (hi.status i th' h).other (fun e h => List.mem_cons_of_mem _ h) (fun h' => ?_) (fun hr t' k' e => ⟨?_, ?_⟩)
        · rcases List.mem_cons.1 h' with h' | h'
          · exact absurd h' he
          · exact h'
        · exact hfr t' k' (hdiff he h hr _ e) (own_sh e)
        · exact hσoth he h hr t' k' e
  -- and when nothing takes effect
  have quiet : own th.op = some (t, k) → (∀ e, (pre.length, e) ∈ l → e.op = th.op → ∀ b, rest = .ret b → s t k = s0' t k) →
      (Status l s s0' pre.length ⟨th.op, rest, d :: th.done⟩) →
      ∃ l' s', SInv ⟨s0', pre ++ ⟨th.op, rest, d :: th.done⟩ :: post⟩ (⟨s0, pre ++ th :: post⟩ :: cs) l' s' := by
    intro hx hfin hst
    have hg := hi.grow (c' := ⟨s0', pre ++ ⟨th.op, rest, d :: th.done⟩ :: post⟩) [] hlt (by
        rintro i b' ⟨th', h, hr⟩
        by_cases he : i = pre.length
        · subst he; rw [hthis'] at h; cases h
          rcases hst with ⟨-, hn, -⟩ | ⟨e, h, -⟩ | ⟨e, h, -⟩
          · exact absurd hr (hn b')
          · exact List.mem_map_of_mem (f := Prod.fst) h
          · exact List.mem_map_of_mem (f := Prod.fst) h
        · rw [hoth he] at h
          exact hi.past _ List.mem_cons_self i b' ⟨th', h, hr⟩)
    refine ⟨l, s, hi.hist, hi.once, hidx, ?_, ?_, ?_, hg.1, hg.2⟩
    · intro t' k' h
      rw [hi.common t' k' h]
      exact (hσ t' k' fun e => by cases e; exact own_sh hx h).symm
    · intro t' k' ht h
      by_cases hx' : own th.op = some (t', k')
      · have hr : ∃ b, rest = .ret b := by
          by_cases hr : ∃ b, rest = .ret b
          · exact hr
          · exact absurd hx' (h pre.length ⟨th.op, rest, d :: th.done⟩ hthis' fun b h => hr ⟨b, h⟩)
        obtain ⟨b, hr⟩ := hr
        rw [hx] at hx'; cases hx'
        rcases hst with ⟨-, hn, -⟩ | ⟨e, -, -, hn, -⟩ | ⟨e, he, ho, -⟩
        · exact absurd hr (hn b)
        · exact absurd hr (hn b)
        · exact hfin e he ho b hr
      · rw [hi.priv t' k' ht ?_]
        · exact (hσ t' k' fun e => hx' (by rw [e]; exact hx)).symm
        · intro i th' h1 h2
          by_cases he : i = pre.length
          · subst he; rw [hthis] at h1; cases h1; exact hx'
          · exact h i th' (by rw [hoth he]; exact h1) h2
    · intro i th' h
      by_cases he : i = pre.length
      · subst he
        rw [hthis'] at h; cases h
        exact hst
      · rw [hoth he] at h
        exact (hi.status i th' h).other (fun e h => h) (fun h' => h') (fun hr t' k' e => ⟨rfl, hσoth he h hr t' k' e⟩)
  rcases hi.status _ _ hthis with ⟨hni, -, hH, hB⟩ | ⟨e, hel, heo, -, hT, hA, hb⟩ | ⟨e, -, -, h⟩
  · rcases hhead _ hH with ⟨hx, hH'⟩ | ⟨hs, hT⟩
    · by_cases hr : ∃ b, rest = .ret b
      · obtain ⟨b, rfl⟩ := hr
        exact lin hni hB trivial fun _ _ _ => rfl
      · refine quiet hx (fun e h => absurd (List.mem_map_of_mem (f := Prod.fst) h) hni) (.inl ⟨hni, fun b h => hr ⟨b, h⟩, hH', ?_⟩)
        intro s' σ' h1 h2 h3
        have := hB s' (upd σ' t k (s0 t k)) h1 (fun t' k' e => by rw [hx] at e; cases e; exact upd_same _ _ _ _)
          (fun t' k' h => by rw [upd_other (fun e => by cases e; exact own_sh hx h)]; exact h3 t' k' h)
        rw [hrun _ (upd_same _ _ _ _), upd_upd, upd_self (h2 t k hx)] at this
        exact this
    · refine lin hni hB hT fun t' k' h => tail_frame (fun e => own_sh e h) hT
  · obtain ⟨hx, hT'⟩ := htail _ hT
    rw [hrun0] at hA hb
    refine quiet hx (fun e' _ _ b hr => ?_) ?_
    · rw [hA t k hx, hr]; rfl
    · by_cases hr : ∃ b, rest = .ret b
      · obtain ⟨b, rfl⟩ := hr
        exact .inr (.inr ⟨e, hel, heo, by rw [hb]; rfl⟩)
      · exact .inr (.inl ⟨e, hel, heo, fun b h => hr ⟨b, h⟩, hT', hA, hb⟩)
  · exact absurd h (hnr _)

private theorem exec_inv {c : Cfg} {cs : List Cfg} : ∀ {ds}, Exec ds → ds = c :: cs → Apart ds → ∃ l s, SInv c cs l s := by
  intro ds h
  induction h generalizing c cs with
  | init =>
    rintro h -
    cases h
    refine ⟨[], _, .new, List.nodup_nil, ?_, ?_, ?_, ?_, ?_, ?_⟩
    · intro i e h; cases h
    · intro t k _; rfl
    · intro t k _ _; rfl
    · intro i th h; cases h
    · rintro c' hc i b ⟨th, h, -⟩
      simp only [List.mem_singleton] at hc
      subst hc; cases h
    · rintro c' hc i j b ⟨th, h, -⟩
      simp only [List.mem_singleton] at hc
      subst hc; cases h
  | step c' he hs ih =>
    intro h hap
    cases h
    obtain ⟨l, s, hi⟩ := ih rfl fun c hc => hap c (List.mem_cons_of_mem _ hc)
    cases hs with
    | start s0 calls op => exact start_inv hi hap
    | micro s0 s0' pre th post rest d hm => exact micro_inv hm hi fun c hc => hap c (List.mem_cons_of_mem _ hc)

/-- **C145** Whatever calls are made on a session at the same time and however their operations interleave, as long as calls that concern the
same request do not overlap, they return what they would return one after the other, in an order in which no call precedes one that had
returned before it began, and leave the same tables. -/
theorem C145_sequential {c : Cfg} {cs : List Cfg} (he : Exec (c :: cs)) (ha : Apart (c :: cs)) : ∃ l s, Looks c cs l s := by
  obtain ⟨l, s, hi⟩ := exec_inv he rfl ha
  refine ⟨l, s, hi.hist, hi.once, hi.idx, ?_, hi.order, ?_⟩
  · rintro i b ⟨th, h1, h2⟩
    rcases hi.status i th h1 with ⟨-, h, -⟩ | ⟨e, -, -, h, -⟩ | ⟨e, h3, -, h4⟩
    · exact absurd h2 (h b)
    · exact absurd h2 (h b)
    · rw [h2] at h4; cases h4; exact ⟨e, h3, rfl⟩
  · intro hall
    funext t k
    by_cases ht : sh t
    · exact (hi.common t k ht).symm
    · refine (hi.priv t k ht fun i th h1 h2 => ?_).symm
      obtain ⟨b, th', h3, h4⟩ := hall i (List.getElem?_eq_some_iff.1 h1).1
      rw [h1] at h3; cases h3
      exact absurd h4 (h2 b)

/-! ### An execution with overlapping calls -/

private def o1 : Op := .send (.ok []) (.register 1 none [])
private def o2 : Op := .recv (.registered 1 5)
private def o3 : Op := .recv (.invocation 9 5 none none none .none)

/-- Does the call still go on? -/
private def going (p : Prog Bool) : Bool := match p with | .ret _ => false | _ => true

private theorem going_iff (p : Prog Bool) : (∀ b, p ≠ .ret b) → going p = true := by
  intro h; cases p <;> first | rfl | exact absurd rfl (h _)

/-- No two calls in progress concern the same request. -/
private def apartB (c : Cfg) : Bool :=
  (List.range c.calls.length).all fun i => (List.range c.calls.length).all fun j => i == j ||
    match c.calls[i]?, c.calls[j]? with
    | some th, some th' => !going th.rest || !going th'.rest || th.op.about == none || th.op.about != th'.op.about
    | _, _ => true

private theorem apart_of {cs : List Cfg} (h : ∀ c ∈ cs, apartB c = true) : Apart cs := by
  intro c hc i j th th' hne h1 h2 g1 g2
  have := h c hc
  simp only [apartB, List.all_eq_true, List.mem_range] at this
  have := this i (List.getElem?_eq_some_iff.1 h1).1 j (List.getElem?_eq_some_iff.1 h2).1
  rw [h1, h2] at this
  simp only [Bool.or_eq_true, beq_iff_eq, Bool.not_eq_true', bne_iff_ne] at this
  rcases this with h | ((h | h) | h) | h
  · exact absurd h hne
  · rw [going_iff _ g1] at h; cases h
  · rw [going_iff _ g2] at h; cases h
  · exact .inl h
  · exact .inr h

/-- REGISTER is sent; then a REGISTERED and an INVOCATION for that registration are received at the same time: the INVOCATION is looked up
between the two operations of the REGISTERED, and refused. -/
example : ∃ c cs, Exec (c :: cs) ∧ Apart (c :: cs) ∧ c.calls.length = 3 ∧ c.returned 0 true ∧ c.returned 1 true ∧ c.returned 2 false := by
  refine ⟨_, _, .step _ (.step _ (.step _ (.step _ (.step _ (.step _ (.step _ .init
    (.start _ _ o1)) (.micro _ _ [] ⟨o1, o1.prog, []⟩ [] _ _ (.store _ _ _ _ _))) (.start _ _ o2)) (.start _ _ o3))
    (.micro _ _ [_] ⟨o2, o2.prog, []⟩ [⟨o3, o3.prog, []⟩] _ _ (.loadAndDelete _ _ _ _)))
    (.micro _ _ [_, _] ⟨o3, o3.prog, []⟩ [] _ _ (.load _ _ _ _)))
    (.micro _ _ [_] ⟨o2, .store .registrations 5 0 (.ret true), _⟩ [_] _ _ (.store _ _ _ _ _)), apart_of ?_, rfl, ⟨_, rfl, rfl⟩, ⟨_, rfl, rfl⟩, ⟨_, rfl, rfl⟩⟩
  intro c hc
  simp only [List.mem_cons, List.not_mem_nil, or_false] at hc
  rcases hc with rfl | rfl | rfl | rfl | rfl | rfl | rfl | rfl <;> rfl

private theorem two_le {α : Type} {P : α → Bool} {a b : α} (hne : a ≠ b) {l : List α} (ha : a ∈ l) (hb : b ∈ l) (pa : P a = true) (pb : P b = true) : 2 ≤ l.countP P := by
  induction l with
  | nil => cases ha
  | cons x l ih =>
    simp only [List.countP_cons]
    rcases List.mem_cons.1 ha with rfl | ha'
    · rcases List.mem_cons.1 hb with rfl | hb'
      · exact absurd rfl hne
      · have : 0 < l.countP P := List.countP_pos_iff.2 ⟨b, hb', pb⟩
        rw [if_pos pa]; omega
    · rcases List.mem_cons.1 hb with rfl | hb'
      · have : 0 < l.countP P := List.countP_pos_iff.2 ⟨a, ha', pa⟩
        rw [if_pos pb]; omega
      · exact Nat.le_trans (ih ha' hb') (Nat.le_add_right _ _)

private theorem count_one {β : Type} (n : Nat) : ∀ l : List (Nat × β), (l.map Prod.fst).Nodup → l.countP (fun p => p.1 == n) ≤ 1
  | [], _ => Nat.zero_le _
  | (i, b) :: l, h => by
    simp only [List.map_cons, List.nodup_cons] at h
    have ih := count_one n l h.2
    simp only [List.countP_cons]
    split
    · rename_i e
      have : l.countP (fun p => p.1 == n) = 0 := by
        rw [List.countP_eq_zero]
        rintro ⟨j, b'⟩ hj e'
        simp only [beq_iff_eq] at e e'
        exact h.1 (e.trans e'.symm ▸ List.mem_map_of_mem (f := Prod.fst) hj)
      omega
    · exact ih

/-- **C145 is false** without the restriction: one CALL is sent, and two RESULTs for it, received at the same time, are both accepted. In no order of
the three calls would they be. -/
theorem C145_overlap : ∃ c cs, Exec (c :: cs) ∧ ∀ l s, ¬Looks c cs l s := by
  let o1 : Op := .send (.ok []) (.call 1 none [] none none .none)
  let o2 : Op := .recv (.result 1 none none none .none)
  refine ⟨_, _, .step _ (.step _ (.step _ (.step _ (.step _ (.step _ (.step _ (.step _ .init
    (.start _ _ o1)) (.micro _ _ [] ⟨o1, o1.prog, []⟩ [] _ _ (.store _ _ _ _ _))) (.start _ _ o2)) (.start _ _ o2))
    (.micro _ _ [_] ⟨o2, o2.prog, []⟩ [⟨o2, o2.prog, []⟩] _ _ (.load _ _ _ _)))
    (.micro _ _ [_, _] ⟨o2, o2.prog, []⟩ [] _ _ (.load _ _ _ _)))
    (.micro _ _ [_] ⟨o2, .delete .call 1 (.ret true), _⟩ [_] _ _ (.delete _ _ _ _)))
    (.micro _ _ [_, _] ⟨o2, .delete .call 1 (.ret true), _⟩ [] _ _ (.delete _ _ _ _)), fun l s hl => ?_⟩
  have hc := C44_one_answer_per_call hl.hist 1
  obtain ⟨e1, m1, r1⟩ := hl.all 1 true ⟨_, rfl, rfl⟩
  obtain ⟨e2, m2, r2⟩ := hl.all 2 true ⟨_, rfl, rfl⟩
  obtain ⟨th1, t1, u1⟩ := hl.same _ _ m1
  obtain ⟨th2, t2, u2⟩ := hl.same _ _ m2
  have q1 : callSettled 1 e1 = true := by
    cases t1; obtain ⟨op, ok⟩ := e1; cases u1; cases r1; rfl
  have q2 : callSettled 1 e2 = true := by
    cases t2; obtain ⟨op, ok⟩ := e2; cases u2; cases r2; rfl
  have two : 2 ≤ (l.map Prod.snd).countP (callSettled 1) := by
    rw [List.countP_map]
    exact two_le (a := (1, e1)) (b := (2, e2)) (by intro h; cases h) m1 m2 q1 q2
  have one : (l.map Prod.snd).countP (callSent 1) ≤ 1 := by
    rw [List.countP_map]
    refine Nat.le_trans (List.countP_mono_left ?_) (count_one 0 l hl.once)
    rintro ⟨i, e⟩ hi he
    obtain ⟨th, t, u⟩ := hl.same _ _ hi
    match i, t with
    | 0, _ => rfl
    | 1, t => cases t; obtain ⟨op, ok⟩ := e; cases u; cases he
    | 2, t => cases t; obtain ⟨op, ok⟩ := e; cases u; cases he
    | n + 3, t => cases t
  omega

end Wamp.Session
