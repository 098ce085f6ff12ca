import Verif.Lemmas.DealerUse
/-!
# C51–C55: the dealer, registrations and the choice of the callee

`Hist w h b` (`Verif.Spec.Dealer`) says: the calls `h` (newest first) were made on a new dealer, and it is now in state `b`.  The theorems
say what the next call returns, in terms of `h`; the state `b` occurs only in `step w b op`, the call itself.
-/
namespace Wamp.Dealer

variable {w : Str → Str → Bool}

/-! ### Examples -/

/-- The history made by these calls. -/
def run (w : Str → Str → Bool) (ops : List Op) : List Event := (exec w ([], init) ops).1
/-- The state they lead to. -/
def after (w : Str → Str → Bool) (ops : List Op) : State := (exec w ([], init) ops).2

theorem hist_exec {h : List Event} {b : State} (hh : Hist w h b) (ops : List Op) (hc : calm w b ops = true) :
    Hist w (exec w (h, b) ops).1 (exec w (h, b) ops).2 := by
  induction ops generalizing h b with
  | nil => exact hh
  | cons op ops ih =>
    simp only [calm, Bool.and_eq_true] at hc
    refine ih (hh.step op ?_) hc.2
    intro e
    rw [e] at hc
    exact absurd hc.1 (by simp)

theorem hist_run (ops : List Op) (hc : calm w init ops = true) : Hist w (run w ops) (after w ops) := hist_exec .new ops hc

/-- A session for the examples below. -/
def who (n : Nat) : SessionDetails := ⟨n, [], [], [], [], false, none, none⟩
/-- REGISTER without options. -/
def reg (s : Nat) (p : String) : Op := .receive s (.register 1 none (str p)) [] 0
/-- REGISTER with an invocation policy. -/
def regWith (s : Nat) (p pol : String) : Op := .receive s (.register 1 (some [(str "invoke", .str (str pol))]) (str p)) [] 0
/-- REGISTER of a pattern. -/
def regPattern (s : Nat) (p m : String) : Op := .receive s (.register 1 (some [(str "match", .str (str m))]) (str p)) [] 0
/-- REGISTER of a pattern with an invocation policy. -/
def regBoth (s : Nat) (p m pol : String) : Op :=
  .receive s (.register 1 (some [(str "invoke", .str (str pol)), (str "match", .str (str m))]) (str p)) [] 0
/-- UNREGISTER -/
def unreg (s i : Nat) : Op := .receive s (.unregister 1 i) [] 0
/-- CALL without options. -/
def callOf (c r : Nat) (p : String) : Op := .receive c (.call r none (str p) none none Bin.none) [] 0
/-- CALL with one option set to true. -/
def callWith (c r : Nat) (p opt : String) : Op := .receive c (.call r (some [(str opt, .bool true)]) (str p) none none Bin.none) [] 0
/-- YIELD -/
def yieldOf (s i : Nat) : Op := .receive s (.yield i none none none Bin.none) [] 0
/-- Invocation ID, registration ID and recipient of an INVOCATION. -/
def Event.invocation? : Event → Option (Nat × Nat × Nat)
  | ⟨_, .ok (.msg (.invocation i q _ _ _ _) s)⟩ => some (i, q, s)
  | _ => none
/-- The error URI sent, and to whom. -/
def Event.error? : Event → Option (Str × Nat)
  | ⟨_, .ok (.msg (.error _ _ _ u _ _) s)⟩ => some (u, s)
  | _ => none
/-- Request ID and recipient of a RESULT. -/
def Event.result? : Event → Option (Nat × Nat)
  | ⟨_, .ok (.msg (.result r _ _ _ _) s)⟩ => some (r, s)
  | _ => none
/-- A `wildcardMatch` for examples in which it does not matter. -/
def noWild : Str → Str → Bool := fun _ _ => false

/-! ### C51 -/

/-- **C51** In every history of at most 2^53 calls, registration and invocation IDs are in [1, 2^53]; a registration ID belongs to one
procedure only, an invocation ID to one request of one caller only; and no ID is used for both. -/
theorem C51_ids {h : List Event} {b : State} (hh : Hist w h b) (hlen : h.length ≤ 2 ^ 53) :
    (∀ e ∈ h, ∀ s p i, registeredAs s p i e → 1 ≤ i ∧ i ≤ 2 ^ 53 ∧
      (∀ e' ∈ h, ∀ s' p', registeredAs s' p' i e' → p' = p) ∧ ∀ e' ∈ h, ∀ c r k, ¬invoked c r i k e') ∧
    (∀ e ∈ h, ∀ c r i k, invoked c r i k e → 1 ≤ i ∧ i ≤ 2 ^ 53 ∧ ∀ e' ∈ h, ∀ c' r' k', invoked c' r' i k' e' → c' = c ∧ r' = r) := by
  have hR := hist_rinv hh hlen
  have hC := hist_cinv hh hlen
  constructor
  · intro e he s p i hreg
    obtain ⟨x, x1, x2, x3⟩ := hR.regs e he s p i hreg
    obtain ⟨o1, o2⟩ := hR.obj x x1
    have := hR.gen
    refine ⟨by omega, by omega, ?_, ?_⟩
    · intro e' he' s' p' hreg'
      obtain ⟨y, y1, y2, y3⟩ := hR.regs e' he' s' p' i hreg'
      rw [hR.inj x x1 y y1 (by rw [x2, y2])] at x3
      exact y3.symm.trans x3
    · intro e' he' c r k hinv
      exact (hC.invs e' he' c r i k hinv).2.2 x x1 x2
  · intro e he c r i k hinv
    obtain ⟨o1, o2, -⟩ := hC.invs e he c r i k hinv
    have := hR.gen
    refine ⟨o1, by omega, fun e' he' c' r' k' hinv' => ?_⟩
    obtain ⟨h1, h2⟩ := hC.invu e he e' he' c r i k c' r' k' hinv hinv'
    exact ⟨h1.symm, h2.symm⟩

/-- A registration and an invocation. -/
example : ∃ h b, Hist w h b ∧ h.length ≤ 2 ^ 53 ∧ (∃ e ∈ h, registeredAs 2 (str "p") 1 e) ∧ ∃ e ∈ h, invoked 1 7 2 2 e := by
  refine ⟨_, _, hist_run [.add (who 1), .add (who 2), reg 2 "p", callOf 1 7 "p"] rfl, Nat.le_of_ble_eq_true rfl, ?_, ?_⟩
  · exact ⟨_, .tail _ (.head _), _, _, _, _, _, _, rfl⟩
  · exact ⟨_, .head _, _, _, _, _, _, _, _, _, _, _, _, _, rfl⟩

/-- **C51** An ID that is given out is new, unless a session joins an existing registration of the same procedure, or a CALL with
`progress` continues a request. -/
theorem C51_fresh {h : List Event} {b : State} (hh : Hist w h b) (hlen : h.length < 2 ^ 53) (op : Op) :
    (∀ s p i, registeredAs s p i ⟨op, (step w b op).2⟩ →
      ((∀ e ∈ h, (∀ s' p', ¬registeredAs s' p' i e) ∧ ∀ c r k, ¬invoked c r i k e) ∨ idOf h p i)) ∧
    (∀ c r i k, invoked c r i k ⟨op, (step w b op).2⟩ →
      ((∀ e ∈ h, (∀ s' p', ¬registeredAs s' p' i e) ∧ ∀ c' r' k', ¬invoked c' r' i k' e) ∨
       ∃ o, isCall c r o ⟨op, (step w b op).2⟩ ∧ o.flag (str "progress") = true)) := by
  have hR := hist_rinv hh (Nat.le_of_lt hlen)
  have hC := hist_cinv hh (Nat.le_of_lt hlen)
  have hg : nextID b.idGen = (b.idGen + 1, b.idGen + 1) := nextID_small (Nat.lt_of_le_of_lt hR.gen hlen)
  have hnew : ∀ e ∈ h, (∀ s' p', ¬registeredAs s' p' (b.idGen + 1) e) ∧ ∀ c' r' k', ¬invoked c' r' (b.idGen + 1) k' e := by
    intro e he
    constructor
    · intro s' p' hreg
      obtain ⟨x, x1, x2, -⟩ := hR.regs e he s' p' _ hreg
      have := (hR.obj x x1).2
      omega
    · intro c' r' k' hinv
      have := (hC.invs e he c' r' _ k' hinv).2.1
      omega
  constructor
  · rintro s p i ⟨q, o, order, rnd, q', s', he⟩
    injection he with h1 h2
    subst h1
    simp only [step, receive] at h2
    rcases register_cases b s q o p with ⟨-, e⟩ | ⟨m, hm, ⟨x, -, -, e⟩ | ⟨x, hx, -, e⟩ | ⟨hp, e⟩⟩ <;> rw [e] at h2
    · cases h2
    · simp [Res.map, alreadyExists, newError] at h2
    · simp only [Res.map_ok, Res.ok.injEq, Out.msg.injEq, Msg.registered.injEq] at h2
      obtain ⟨⟨-, rfl⟩, -⟩ := h2
      right
      obtain ⟨y1, y2⟩ := hR.byp p x hx
      rw [← y2]
      exact hR.born x y1
    · simp only [Res.map_ok, Res.ok.injEq, Out.msg.injEq, Msg.registered.injEq, hg] at h2
      obtain ⟨⟨-, rfl⟩, -⟩ := h2
      exact .inl hnew
  · rintro c r i k ⟨o, p, a, k1, bin, order, rnd, rid, d, a', k', bin', he⟩
    injection he with h1 h2
    subst h1
    obtain ⟨x, nc, cd, -, -, -, -, -, -, -, hid⟩ := invocation_of h2
    rcases hid with ⟨-, hid⟩ | ⟨-, hid⟩
    · rw [hg] at hid
      subst hid
      exact .inl hnew
    · exact .inr ⟨o, ⟨p, a, k1, bin, order, rnd, rfl⟩, hid⟩

/-- **C51** Who registers an unregistered procedure gets a new ID; who joins a registration gets its ID. -/
theorem C51_register {h : List Event} {b : State} (hh : Hist w h b) (hlen : h.length < 2 ^ 53) (p : Str) (hH : Held p h)
    (s i : Nat) (op : Op) (hop : registeredAs s p i ⟨op, (step w b op).2⟩) :
    (regOf h p = none → ∀ e ∈ h, (∀ s' p', ¬registeredAs s' p' i e) ∧ ∀ c r k, ¬invoked c r i k e) ∧
    ∀ r, regOf h p = some r → i = r.id := by
  have hR := hist_rinv hh (Nat.le_of_lt hlen)
  have hI := hist_hinv hh (Nat.le_of_lt hlen) hH
  have hC := hist_cinv hh (Nat.le_of_lt hlen)
  have hg : nextID b.idGen = (b.idGen + 1, b.idGen + 1) := nextID_small (Nat.lt_of_le_of_lt hR.gen hlen)
  obtain ⟨q, o, order, rnd, q', s', he⟩ := hop
  injection he with h1 h2
  subst h1
  simp only [step, receive] at h2
  rcases register_cases b s q o p with ⟨-, e⟩ | ⟨m, hm, ⟨x, -, -, e⟩ | ⟨x, hx, -, e⟩ | ⟨hp, e⟩⟩ <;> rw [e] at h2
  · cases h2
  · simp [Res.map, alreadyExists, newError] at h2
  · simp only [Res.map_ok, Res.ok.injEq, Out.msg.injEq, Msg.registered.injEq] at h2
    obtain ⟨⟨-, rfl⟩, -⟩ := h2
    obtain ⟨r, r0, r1, -⟩ := hI.live x hx
    refine ⟨fun hn => ?_, fun r' hr' => ?_⟩
    · rw [hn] at r0; cases r0
    · rw [r0] at hr'; cases hr'; exact r1.symm
  · simp only [Res.map_ok, Res.ok.injEq, Out.msg.injEq, Msg.registered.injEq, hg] at h2
    obtain ⟨⟨-, rfl⟩, -⟩ := h2
    refine ⟨fun _ e he => ⟨?_, ?_⟩, fun r hr => ?_⟩
    · intro s' p' hreg
      obtain ⟨x, x1, x2, -⟩ := hR.regs e he s' p' _ hreg
      have := (hR.obj x x1).2
      omega
    · intro c' r' k' hinv
      have := (hC.invs e he c' r' _ k' hinv).2.1
      omega
    · rw [hI.dead hp] at hr; cases hr

/-- A second session joins; later the procedure is registered anew. -/
example : ∃ h b, Hist w h b ∧ h.length < 2 ^ 53 ∧ Held (str "p") h ∧ (regOf h (str "p")).map RegView.id = some 2 ∧
    registeredAs 2 (str "p") 2 ⟨regWith 2 "p" "first", (step w b (regWith 2 "p" "first")).2⟩ := by
  refine ⟨_, _, hist_run [.add (who 1), .add (who 2), regWith 1 "p" "first", unreg 1 1, regWith 1 "p" "first"] rfl, Nat.le_of_ble_eq_true rfl, ?_, rfl, ?_⟩
  · exact ⟨fun _ => ⟨⟨1, str "first", [], [1]⟩, rfl, rfl, .head _⟩, trivial⟩
  · exact ⟨_, _, _, _, _, _, rfl⟩

/-! ### C52 -/

/-- **C52** If every REGISTER for `p` asked for the single policy: an attached session's REGISTER for `p` is refused with
procedure_already_exists exactly while there is an owner. -/
theorem C52_register {h : List Event} {b : State} (hh : Hist w h b) (hlen : h.length < 2 ^ 53) (p : Str) (hs : Single p h)
    (s q : Nat) (o : GoMap) (order : List Str) (rnd : Nat) (ha : attached h s) :
    (owner h p ≠ none ↔
      (step w b (.receive s (.register q o p) order rnd)).2 =
        .ok (.msg (.error 64 q (some []) (str "wamp.error.procedure_already_exists") none none) s)) ∧
    (owner h p = none ↔ ∃ i, (step w b (.receive s (.register q o p) order rnd)).2 = .ok (.msg (.registered q i) s)) := by
  obtain ⟨ht, hg⟩ := hist_single hh (Nat.le_of_lt hlen) hs
  have hI := hist_hinv hh (Nat.le_of_lt hlen) ht.held
  have hS := hist_sinv hh
  have key : (owner h p ≠ none ∧ (step w b (.receive s (.register q o p) order rnd)).2 =
        .ok (.msg (.error 64 q (some []) (str "wamp.error.procedure_already_exists") none none) s)) ∨
      (owner h p = none ∧ ∃ i, (step w b (.receive s (.register q o p) order rnd)).2 = .ok (.msg (.registered q i) s)) := by
    simp only [step, receive]
    rcases register_cases b s q o p with ⟨hn, -⟩ | ⟨m, hm, ⟨x, hx, -, e⟩ | ⟨x, hx, hnot, e⟩ | ⟨hp, e⟩⟩
    · have := hS.bys s
      rw [hn] at this
      rw [attached, ← this] at ha
      cases ha
    · left
      obtain ⟨r, h0, -⟩ := hI.live x hx
      simp only [SgInv, h0] at hg
      obtain ⟨y, g1, -⟩ := hg
      rw [g1, e]
      exact ⟨by simp, rfl⟩
    · exfalso
      obtain ⟨r, h0, -, h2, -⟩ := hI.live x hx
      simp only [SgInv, h0] at hg
      obtain ⟨_, -, -, h3⟩ := hg
      rw [h2] at h3
      rcases h3 with h3 | h3
      · exact hnot (.inl h3)
      · exact hnot (.inr (.inl h3))
    · right
      have h0 := hI.dead hp
      simp only [SgInv, h0] at hg
      rw [e]
      exact ⟨hg, _, rfl⟩
  rcases key with ⟨k1, k2⟩ | ⟨k1, i, k2⟩
  · rw [k2]
    exact ⟨⟨fun _ => rfl, fun _ => k1⟩, ⟨fun h => absurd h k1, fun ⟨i, h⟩ => by simp at h⟩⟩
  · rw [k2]
    exact ⟨⟨fun h => absurd k1 h, fun h => by simp at h⟩, ⟨fun _ => ⟨i, rfl⟩, fun _ => k1⟩⟩

/-- **C52** If every REGISTER for `p` asked for the single policy: while `p` has an owner, a CALL for `p` becomes an INVOCATION for the
owner (the caller being attached if it is to be disclosed). -/
theorem C52_call {h : List Event} {b : State} (hh : Hist w h b) (hlen : h.length < 2 ^ 53) (p : Str) (hs : Single p h)
    (c r : Nat) (o : GoMap) (a : GoSlice) (k : GoMap) (bin : Bin) (order : List Str) (rnd : Nat) (hd : disclosed h = true → attached h c)
    (s i : Nat) (ho : owner h p = some (s, i)) :
    ∃ j d a' k' bin', (step w b (.receive c (.call r o p a k bin) order rnd)).2 = .ok (.msg (.invocation j i d a' k' bin') s) := by
  obtain ⟨ht, hg⟩ := hist_single hh (Nat.le_of_lt hlen) hs
  have hI := hist_hinv hh (Nat.le_of_lt hlen) ht.held
  cases hr : regOf h p with
  | none => simp only [SgInv, hr] at hg; rw [hg] at ho; cases ho
  | some r' =>
    simp only [SgInv, hr] at hg
    obtain ⟨x, g1, g2, -⟩ := hg
    rw [ho] at g1
    cases g1
    obtain ⟨j, d, a', k', bin', s', e, hm⟩ := call_live (q := r) (o := o) (a := a) (k := k) (bin := bin) (rnd := rnd) hh (Nat.le_of_lt hlen) ht hr
      (lookup_own hI hr order) hd
    rw [g2, List.mem_singleton] at hm
    subst hm
    exact ⟨j, d, a', k', bin', e⟩

/-- **C52** If every REGISTER for `p` asked for the single policy: an INVOCATION that names a registration of `p` (whatever was called)
goes to the owner of `p`. -/
theorem C52_only_owner {h : List Event} {b : State} (hh : Hist w h b) (hlen : h.length < 2 ^ 53) (p : Str) (hs : Single p h)
    (c r : Nat) (o : GoMap) (u : Str) (a : GoSlice) (k : GoMap) (bin : Bin) (order : List Str) (rnd : Nat)
    (j i s : Nat) (d : GoMap) (a' : GoSlice) (k' : GoMap) (bin' : Bin)
    (he : (step w b (.receive c (.call r o u a k bin) order rnd)).2 = .ok (.msg (.invocation j i d a' k' bin') s)) (hi : idOf h p i) :
    owner h p = some (s, i) := by
  obtain ⟨ht, hg⟩ := hist_single hh (Nat.le_of_lt hlen) hs
  have hR := hist_rinv hh (Nat.le_of_lt hlen)
  have hI := hist_hinv hh (Nat.le_of_lt hlen) ht.held
  have hT := hist_tinv hh (Nat.le_of_lt hlen) ht
  obtain ⟨x, nc, cd, hl, hne, hpk, hid, -⟩ := invocation_of he
  have hx := lookup_lt hR hl
  have hproc := (idOf_obj hR hx hid).1 hi
  rcases hI.gone x hx hproc with hb | hb
  · obtain ⟨r', h0, h1, -⟩ := hI.live x hb
    obtain ⟨c1, -, -⟩ := hT.cs x r' hb h0
    simp only [SgInv, h0] at hg
    obtain ⟨y, g1, g2, -⟩ := hg
    have hm := pick_mem hpk
    rw [c1, g2, List.mem_singleton] at hm
    subst hm
    rw [g1, h1, hid]
  · exact absurd hb hne

/-- **C52** Without owner, and without patterns, a CALL for `p` is answered with no_such_procedure. -/
theorem C52_no_owner {h : List Event} {b : State} (hh : Hist w h b) (hlen : h.length < 2 ^ 53) (p : Str) (hs : Single p h) (hn : noPatterns h)
    (c r : Nat) (o : GoMap) (a : GoSlice) (k : GoMap) (bin : Bin) (order : List Str) (rnd : Nat) (ho : owner h p = none) :
    (step w b (.receive c (.call r o p a k bin) order rnd)).2 =
      .ok (.msg (.error 48 r (some []) (str "wamp.error.no_such_procedure") none none) c) := by
  obtain ⟨ht, hg⟩ := hist_single hh (Nat.le_of_lt hlen) hs
  have hI := hist_hinv hh (Nat.le_of_lt hlen) ht.held
  obtain ⟨ht1, ht2⟩ := hist_plain hh hn
  have hb : b.byProc p = none := by
    cases hb : b.byProc p with
    | none => rfl
    | some x =>
      obtain ⟨r', h0, -⟩ := hI.live x hb
      simp only [SgInv, h0] at hg
      obtain ⟨y, g1, -⟩ := hg
      rw [ho] at g1; cases g1
  have hl : lookup w order b p = none := by
    cases hl : lookup w order b p with
    | none => rfl
    | some x =>
      rcases lookup_cases hl with h1 | ⟨q, -, h1, -⟩ | ⟨q, -, h1⟩
      · rw [hb] at h1; cases h1
      · rw [ht1] at h1; cases h1
      · rw [ht2] at h1; cases h1
  simp only [step, receive, call, hl, Res.map_ok]
  rfl

/-- A registration that changed hands. -/
example : ∃ h b, Hist w h b ∧ h.length < 2 ^ 53 ∧ Single (str "p") h ∧ owner h (str "p") = some (2, 2) ∧ attached h 1 ∧ noPatterns h ∧
    owner h (str "q") = none ∧ idOf h (str "p") 2 := by
  refine ⟨_, _, hist_run [.add (who 1), .add (who 2), reg 1 "p", reg 2 "p", unreg 1 1, reg 2 "p"] rfl, Nat.le_of_ble_eq_true rfl, ?_, rfl, rfl, ?_, rfl, ?_⟩
  · intro e he s q o order rnd heq
    simp only [run, exec, List.mem_cons, List.not_mem_nil, or_false] at he
    rcases he with rfl | rfl | rfl | rfl | rfl | rfl <;>
      simp only [reg, unreg, reduceCtorEq, Op.receive.injEq, Msg.register.injEq, false_and, and_false] at heq
    all_goals (obtain ⟨-, ⟨-, rfl, -⟩, -⟩ := heq; exact .inl rfl)
  · intro e he s q o p order rnd heq
    simp only [run, exec, List.mem_cons, List.not_mem_nil, or_false] at he
    rcases he with rfl | rfl | rfl | rfl | rfl | rfl <;>
      simp only [reg, unreg, reduceCtorEq, Op.receive.injEq, Msg.register.injEq, false_and, and_false] at heq
    all_goals (obtain ⟨-, ⟨-, rfl, -⟩, -⟩ := heq; exact ⟨by decide, by decide⟩)
  · exact ⟨_, .head _, 2, _, _, _, _, _, _, rfl⟩

/-! ### C53, C54 -/

/-- **C53** After every history, the recipient of an INVOCATION is attached. -/
theorem C53_attached {h : List Event} {b : State} (hh : Hist w h b)
    (c r : Nat) (o : GoMap) (u : Str) (a : GoSlice) (k : GoMap) (bin : Bin) (order : List Str) (rnd : Nat)
    (j i s : Nat) (d : GoMap) (a' : GoSlice) (k' : GoMap) (bin' : Bin)
    (he : (step w b (.receive c (.call r o u a k bin) order rnd)).2 = .ok (.msg (.invocation j i d a' k' bin') s)) : attached h s := by
  obtain ⟨x, nc, cd, -, -, -, -, hs, -⟩ := invocation_of he
  rw [attached, ← (hist_sinv hh).sess, hs]
  rfl

/-- A shared registration one of whose members was removed. -/
example : ∃ h b, Hist noWild h b ∧ Event.invocation? ⟨callOf 1 7 "p", (step noWild b (callOf 1 7 "p")).2⟩ = some (2, 1, 3) := by
  exact ⟨_, _, hist_run [.add (who 1), .add (who 2), .add (who 3), regWith 2 "p" "first", regWith 3 "p" "first", .remove 2 []] (by decide +kernel), by decide +kernel⟩

/-- **C54** what holds after every history: the recipient of an INVOCATION once registered the named registration, whose procedure is
the one called, or a prefix of it, or a pattern that it matches.  What is missing is that the recipient did not unregister it since
(`C54_unregistered`); `C54_members` proves that for well-behaved histories. -/
theorem C54_registered_partial {h : List Event} {b : State} (hh : Hist w h b) (hlen : h.length < 2 ^ 53)
    (c r : Nat) (o : GoMap) (u : Str) (a : GoSlice) (k : GoMap) (bin : Bin) (order : List Str) (rnd : Nat)
    (j i s : Nat) (d : GoMap) (a' : GoSlice) (k' : GoMap) (bin' : Bin)
    (he : (step w b (.receive c (.call r o u a k bin) order rnd)).2 = .ok (.msg (.invocation j i d a' k' bin') s)) :
    ∃ p, (∃ e ∈ h, registeredAs s p i e) ∧ (p = u ∨ p <+: u ∨ w u p = true) := by
  have hR := hist_rinv hh (Nat.le_of_lt hlen)
  obtain ⟨x, nc, cd, hl, hne, hpk, hid, -⟩ := invocation_of he
  have hx := lookup_lt hR hl
  refine ⟨(b.heap x).procedure, ?_, ?_⟩
  · rw [← hid]
    exact hR.cal x hx s (pick_mem hpk)
  · rcases lookup_cases hl with h1 | ⟨q, h2, h1, -⟩ | ⟨q, h2, h1⟩
    · exact .inl (hR.byp u x h1).2
    · rw [(hR.trp q x h1).2]; exact .inr (.inl h2)
    · rw [(hR.wcp q x h1).2]; exact .inr (.inr h2)

/-- **C54** If nobody registered `p` twice or left a shared registration of `p` by UNREGISTER: an INVOCATION that names a registration of
`p` names the present one and goes to one of its members; and what was called is `p`, or `p` is a prefix registration and a prefix of
it, or `p` is a wildcard registration and matches it. -/
theorem C54_members {h : List Event} {b : State} (hh : Hist w h b) (hlen : h.length < 2 ^ 53) (p : Str) (ht : Tame p h)
    (c r : Nat) (o : GoMap) (u : Str) (a : GoSlice) (k : GoMap) (bin : Bin) (order : List Str) (rnd : Nat)
    (j i s : Nat) (d : GoMap) (a' : GoSlice) (k' : GoMap) (bin' : Bin)
    (he : (step w b (.receive c (.call r o u a k bin) order rnd)).2 = .ok (.msg (.invocation j i d a' k' bin') s)) (hi : idOf h p i) :
    ∃ g, regOf h p = some g ∧ g.id = i ∧ s ∈ g.members ∧
      (p = u ∨ (p <+: u ∧ g.mtch = str "prefix") ∨ (w u p = true ∧ g.mtch = str "wildcard")) := by
  have hR := hist_rinv hh (Nat.le_of_lt hlen)
  have hI := hist_hinv hh (Nat.le_of_lt hlen) ht.held
  have hT := hist_tinv hh (Nat.le_of_lt hlen) ht
  obtain ⟨x, nc, cd, hl, hne, hpk, hid, -⟩ := invocation_of he
  have hx := lookup_lt hR hl
  have hproc := (idOf_obj hR hx hid).1 hi
  rcases hI.gone x hx hproc with hb | hb
  · obtain ⟨g, h0, h1, h2, h3, h4, h5⟩ := hI.live x hb
    obtain ⟨c1, -, -⟩ := hT.cs x g hb h0
    refine ⟨g, h0, h1.trans hid, by rw [← c1]; exact pick_mem hpk, ?_⟩
    rcases lookup_cases hl with l1 | ⟨q, l2, l1, -⟩ | ⟨q, l2, l1⟩
    · exact .inl (hproc.symm.trans (hR.byp u x l1).2)
    · have hq : q = p := (hR.trp q x l1).2.symm.trans hproc
      subst hq
      refine .inr (.inl ⟨l2, ?_⟩)
      rw [← normMatch_prefix, h3]
      exact hI.tmt x l1
    · have hq : q = p := (hR.wcp q x l1).2.symm.trans hproc
      subst hq
      refine .inr (.inr ⟨l2, ?_⟩)
      rw [← normMatch_wildcard, h3]
      exact (hI.wl x l1).2
  · exact absurd hb hne

/-- Two members, one of them removed. -/
example : ∃ h b, Hist noWild h b ∧ h.length < 2 ^ 53 ∧ Tame (str "p") h ∧ idOf h (str "p") 1 ∧
    Event.invocation? ⟨callOf 1 7 "p", (step noWild b (callOf 1 7 "p")).2⟩ = some (2, 1, 3) := by
  refine ⟨_, _, hist_run [.add (who 1), .add (who 2), .add (who 3), regWith 2 "p" "first", regWith 3 "p" "first", .remove 2 []] (by decide +kernel),
    Nat.le_of_ble_eq_true rfl, ?_, ?_, rfl⟩
  · exact ⟨trivial, fun _ => by decide, fun _ => by decide, trivial, trivial, trivial, trivial⟩
  · exact ⟨_, .tail _ (.head _), 3, _, _, _, _, _, _, rfl⟩

/-- **C54 is false** for shared registrations: session 2 has unregistered, and still gets the call. -/
theorem C54_unregistered : ∃ h b, Hist w h b ∧ members h (str "p") = [3] ∧
    Event.invocation? ⟨callOf 1 7 "p", (step w b (callOf 1 7 "p")).2⟩ = some (2, 1, 2) := by
  exact ⟨_, _, hist_run [.add (who 1), .add (who 2), .add (who 3), regWith 2 "p" "first", regWith 3 "p" "first", unreg 2 1] rfl, rfl, rfl⟩

/-! ### C55 -/

/-- **C55** If sessions joined the registration of `p` once each and only left by being removed (or unregistered when alone): a CALL for
`p` becomes an INVOCATION under that registration, … -/
theorem C55_called {h : List Event} {b : State} (hh : Hist w h b) (hlen : h.length < 2 ^ 53) (p : Str) (ht : Tame p h)
    (g : RegView) (hg : regOf h p = some g)
    (c r : Nat) (o : GoMap) (a : GoSlice) (k : GoMap) (bin : Bin) (order : List Str) (rnd : Nat) (hd : disclosed h = true → attached h c) :
    ∃ i d a' k' bin' s, (step w b (.receive c (.call r o p a k bin) order rnd)).2 = .ok (.msg (.invocation i g.id d a' k' bin') s) ∧
      s ∈ g.members :=
  call_live hh (Nat.le_of_lt hlen) ht hg (lookup_own (hist_hinv hh (Nat.le_of_lt hlen) ht.held) hg order) hd

/-- … and an INVOCATION under that registration goes to the earliest member for policy `first`, to the latest one for `last`, to some
member for `random` (to any member, depending on the random number). -/
theorem C55_policies {h : List Event} {b : State} (hh : Hist w h b) (hlen : h.length < 2 ^ 53) (p : Str) (ht : Tame p h)
    (g : RegView) (hg : regOf h p = some g)
    (c r : Nat) (o : GoMap) (u : Str) (a : GoSlice) (k : GoMap) (bin : Bin) (order : List Str) (rnd : Nat)
    (j s : Nat) (d : GoMap) (a' : GoSlice) (k' : GoMap) (bin' : Bin)
    (he : (step w b (.receive c (.call r o u a k bin) order rnd)).2 = .ok (.msg (.invocation j g.id d a' k' bin') s)) :
    (g.policy = str "first" → g.members.head? = some s) ∧ (g.policy = str "last" → g.members.getLast? = some s) ∧
    (g.policy = str "random" → g.members[rnd % g.members.length]? = some s) := by
  have hR := hist_rinv hh (Nat.le_of_lt hlen)
  have hI := hist_hinv hh (Nat.le_of_lt hlen) ht.held
  have hT := hist_tinv hh (Nat.le_of_lt hlen) ht
  obtain ⟨x, nc, cd, hl, hne, hpk, hid, -⟩ := invocation_of he
  have hx := lookup_lt hR hl
  obtain ⟨y, y1, y2, y3, -⟩ := live_obj hI hg
  have hxy : x = y := hR.inj x hx y (hR.byp p y y1).1 (by rw [hid, y2])
  subst hxy
  obtain ⟨c1, -, -⟩ := hT.cs x g y1 hg
  rw [y3]
  simp only [pick, c1] at hpk
  split at hpk
  · rename_i hlen1
    refine ⟨fun hp => ?_, fun hp => ?_, fun hp => ?_⟩
    · rw [if_pos (show (b.heap x).policy = invokeFirst from hp)] at hpk
      simp only [Res.ok.injEq, Prod.mk.injEq] at hpk
      rw [← hpk.1, getD_at (by omega), List.head?_eq_getElem?, List.getElem?_eq_getElem (by omega)]
    · rw [if_neg (by rw [hp]; decide), if_pos (show (b.heap x).policy = invokeLast from hp)] at hpk
      simp only [Res.ok.injEq, Prod.mk.injEq] at hpk
      rw [← hpk.1, getD_at (by omega), List.getLast?_eq_getElem?, List.getElem?_eq_getElem (by omega)]
    · rw [if_neg (by rw [hp]; decide), if_neg (by rw [hp]; decide), if_neg (by rw [hp]; decide), if_pos (show (b.heap x).policy = invokeRandom from hp)] at hpk
      simp only [Res.ok.injEq, Prod.mk.injEq] at hpk
      have := Nat.mod_lt rnd (y := g.members.length) (by omega)
      rw [← hpk.1, getD_at this, List.getElem?_eq_getElem this]
  · rename_i hlen1
    cases hm : g.members with
    | nil => rw [hm] at hpk; cases hpk
    | cons m ms =>
      rw [hm] at hpk hlen1
      simp only [List.length_cons] at hlen1
      have : ms = [] := List.length_eq_zero_iff.1 (by omega)
      subst this
      cases hpk
      refine ⟨fun _ => rfl, fun _ => rfl, fun _ => ?_⟩
      simp [Nat.mod_one]

/-- **C55** Round robin: any `n` consecutive INVOCATIONs under a registration with `n` members, while the members stay the same, go to
`n` different sessions, namely to each member once. -/
theorem C55_roundrobin {h : List Event} {b : State} (hh : Hist w h b) (hlen : h.length ≤ 2 ^ 53) (p : Str) (ht : Tame p h)
    (g : RegView) (hg : regOf h p = some g) (hp : g.policy = str "roundrobin") (j : Nat) (hj : j + g.members.length ≤ (served h p).length) :
    (((served h p).drop j).take g.members.length).length = g.members.length ∧
    (((served h p).drop j).take g.members.length).Nodup ∧ ∀ s, s ∈ ((served h p).drop j).take g.members.length ↔ s ∈ g.members := by
  have hI := hist_hinv hh hlen ht.held
  have hT := hist_tinv hh hlen ht
  obtain ⟨x, x1, -⟩ := live_obj hI hg
  obtain ⟨-, -, hn⟩ := hT.cs x g x1 hg
  refine ⟨by rw [List.length_take, List.length_drop]; omega, ?_⟩
  rcases hist_qinv hh hlen ht x g x1 hg hp with h0 | ⟨start, h1, -⟩
  · rw [h0] at hj ⊢
    simp only [List.length_nil] at hj
    have : g.members.length = 0 := by omega
    rw [this]
    have := List.length_eq_zero_iff.1 this
    simp [this]
  · generalize (served h p).length = L at h1 hj
    rw [h1, window L start j hj]
    obtain ⟨r1, r2⟩ := round_nodup hn (start + (L - j - g.members.length))
    refine ⟨?_, fun s => by rw [List.mem_reverse]; exact r2 s⟩
    rw [List.Nodup, List.pairwise_reverse]
    exact List.Pairwise.imp (fun h => Ne.symm h) r1

/-- Three members joined, the first was removed, then five calls: the two others take turns. -/
example : ∃ h b, Hist noWild h b ∧ h.length ≤ 2 ^ 53 ∧ Tame (str "p") h ∧
    regOf h (str "p") = some ⟨1, str "roundrobin", [], [3, 4]⟩ ∧ served h (str "p") = [4, 3, 4, 3, 4] := by
  refine ⟨_, _, hist_run [.add (who 1), .add (who 2), .add (who 3), .add (who 4), regWith 2 "p" "roundrobin", regWith 3 "p" "roundrobin",
    callOf 1 1 "p", regWith 4 "p" "roundrobin", .remove 2 [], callOf 1 7 "p", callOf 1 8 "p", callOf 1 9 "p", callOf 1 10 "p", callOf 1 11 "p"] (by decide +kernel),
    Nat.le_of_ble_eq_true rfl, ?_, by decide +kernel, by decide +kernel⟩
  exact ⟨trivial, trivial, trivial, trivial, trivial, trivial, fun _ => by decide, trivial, fun _ => by decide, fun _ => by decide, trivial, trivial,
    trivial, trivial, trivial⟩

/-- A `first` and a `last` registration. -/
example : ∃ h b, Hist noWild h b ∧ h.length < 2 ^ 53 ∧ Tame (str "p") h ∧ Tame (str "q") h ∧
    regOf h (str "p") = some ⟨1, str "first", [], [2, 3]⟩ ∧ regOf h (str "q") = some ⟨2, str "last", [], [2, 3]⟩ ∧
    Event.invocation? ⟨callOf 1 7 "p", (step noWild b (callOf 1 7 "p")).2⟩ = some (3, 1, 2) ∧
    Event.invocation? ⟨callOf 1 7 "q", (step noWild b (callOf 1 7 "q")).2⟩ = some (3, 2, 3) := by
  refine ⟨_, _, hist_run [.add (who 1), .add (who 2), .add (who 3), regWith 2 "p" "first", regWith 3 "p" "first",
    regWith 2 "q" "last", regWith 3 "q" "last"] (by decide +kernel), Nat.le_of_ble_eq_true rfl, ?_, ?_, by decide +kernel, by decide +kernel, by decide +kernel, by decide +kernel⟩
  · exact ⟨fun h => absurd h (by decide), fun h => absurd h (by decide), fun _ => by decide, fun _ => by decide, trivial, trivial, trivial, trivial⟩
  · exact ⟨fun _ => by decide, fun _ => by decide, fun h => absurd h (by decide), fun h => absurd h (by decide), trivial, trivial, trivial, trivial⟩

end Wamp.Dealer
