import Verif.Spec.Dealer
import Verif.Lemmas.Base
/-!
# Invariants of the dealer that hold after every history
-/
namespace Wamp.Dealer

theorem nextID_small {n : Nat} (h : n < maxID) : nextID n = (n + 1, n + 1) := by
  simp [nextID, Nat.ne_of_lt h]

/-- What does not change, or only shrinks, when sessions or registrations go. -/
structure Frame (b b' : State) : Prop where
  next : b'.next = b.next
  pending : b'.pending = b.pending
  invByCall : b'.invByCall = b.invByCall
  idGen : b'.idGen = b.idGen
  det : b'.details = b.details
  tree : b'.tree = b.tree
  objs : ∀ a, (b'.heap a).id = (b.heap a).id ∧ (b'.heap a).procedure = (b.heap a).procedure ∧
    (∀ s ∈ (b'.heap a).callees, s ∈ (b.heap a).callees)
  byp : ∀ p a, b'.byProc p = some a → b.byProc p = some a
  wcs : ∀ p a, b'.wc.get p = some a → b.wc.get p = some a

theorem Frame.rfl' (b : State) : Frame b b :=
  ⟨rfl, rfl, rfl, rfl, rfl, rfl, fun _ => ⟨rfl, rfl, fun _ h => h⟩, fun _ _ h => h, fun _ _ h => h⟩

theorem Frame.trans {b b' b'' : State} (f : Frame b b') (g : Frame b' b'') : Frame b b'' where
  next := g.next.trans f.next
  pending := g.pending.trans f.pending
  invByCall := g.invByCall.trans f.invByCall
  idGen := g.idGen.trans f.idGen
  det := g.det.trans f.det
  tree := g.tree.trans f.tree
  objs a := ⟨(g.objs a).1.trans (f.objs a).1, (g.objs a).2.1.trans (f.objs a).2.1, fun s h => (f.objs a).2.2 s ((g.objs a).2.2 s h)⟩
  byp p a h := f.byp p a (g.byp p a h)
  wcs p a h := f.wcs p a (g.wcs p a h)

theorem surgery_subset {id : Nat} {cs : List Nat} {s : Nat} : ∀ (k i : Nat) (bk : List Nat) (len : Nat),
    surgery id k i bk len = .ok cs → s ∈ cs → s ∈ bk
  | 0, i, bk, len, h, hs => by
    simp only [surgery, Res.ok.injEq] at h
    subst h
    exact List.mem_of_mem_take hs
  | k + 1, i, bk, len, h, hs => by
    simp only [surgery] at h
    split at h
    · split at h
      · exact surgery_subset k _ _ _ h hs
      · split at h
        · cases h
        · have := surgery_subset k _ _ _ h hs
          simp only [List.append_assoc, List.mem_append] at this
          rcases this with h1 | h1 | h1
          · exact List.mem_of_mem_take h1
          · exact List.mem_of_mem_take (List.mem_of_mem_drop h1)
          · exact List.mem_of_mem_drop h1
    · exact surgery_subset k _ _ _ h hs

theorem removeStep_frame {id : Nat} {b b' : State} {a : Nat} (h : removeStep id b a = .ok b') :
    Frame b b' ∧ b'.sessions = b.sessions ∧ b'.bySession = b.bySession := by
  simp only [removeStep] at h
  cases hp : b.byProc (b.heap a).procedure with
  | none => rw [hp] at h; cases h; exact ⟨Frame.rfl' _, rfl, rfl⟩
  | some p =>
    rw [hp] at h
    simp only at h
    cases hs : surgery id (b.heap p).callees.length 0 (b.heap p).callees (b.heap p).callees.length with
    | err => rw [hs] at h; cases h
    | panic => rw [hs] at h; cases h
    | ok cs =>
      rw [hs] at h
      simp only [Res.bind_ok, Res.ok.injEq] at h
      subst h
      refine ⟨⟨rfl, rfl, rfl, rfl, rfl, rfl, ?_, ?_, ?_⟩, rfl, rfl⟩
      · intro a'
        simp only [hset]
        split
        · rename_i e
          subst e
          exact ⟨rfl, rfl, fun s h => surgery_subset _ _ _ _ hs h⟩
        · exact ⟨rfl, rfl, fun _ h => h⟩
      · intro q a' h
        simp only at h
        split at h
        · simp only [FMap.del_apply] at h
          split at h
          · cases h
          · exact h
        · exact h
      · intro q a' h
        simp only at h
        split at h
        · rw [AMap.get_del] at h
          split at h
          · cases h
          · exact h
        · exact h

theorem removeLoop_frame {id : Nat} : ∀ {as : List Nat} {b b' : State}, removeLoop id b as = .ok b' →
    Frame b b' ∧ b'.sessions = b.sessions ∧ b'.bySession = b.bySession
  | [], b, b', h => by cases h; exact ⟨Frame.rfl' _, rfl, rfl⟩
  | a :: as, b, b', h => by
    simp only [removeLoop] at h
    cases hs : removeStep id b a with
    | err => rw [hs] at h; cases h
    | panic => rw [hs] at h; cases h
    | ok b1 =>
      rw [hs] at h
      obtain ⟨f1, f2, f3⟩ := removeStep_frame hs
      obtain ⟨g1, g2, g3⟩ := removeLoop_frame (b := b1) h
      exact ⟨f1.trans g1, g2.trans f2, g3.trans f3⟩

theorem removeLoop_no_err {id : Nat} : ∀ {as : List Nat} {b : State}, removeLoop id b as ≠ .err
  | [], b, h => by cases h
  | a :: as, b, h => by
    simp only [removeLoop] at h
    cases hs : removeStep id b a with
    | err =>
      simp only [removeStep] at hs
      split at hs
      · cases hs
      · rename_i p hp
        have : ∀ (k i : Nat) (bk : List Nat) (len : Nat), surgery id k i bk len ≠ .err := by
          intro k
          induction k with
          | zero => intro i bk len h; simp [surgery] at h
          | succ k ih =>
            intro i bk len h
            simp only [surgery] at h
            split at h
            · split at h
              · exact ih _ _ _ h
              · split at h
                · cases h
                · exact ih _ _ _ h
            · exact ih _ _ _ h
        cases hq : surgery id (b.heap p).callees.length 0 (b.heap p).callees (b.heap p).callees.length with
        | err => exact this _ _ _ _ hq
        | ok cs => rw [hq] at hs; cases hs
        | panic => rw [hq] at hs; cases hs
    | panic => rw [hs] at h; cases h
    | ok b1 => rw [hs] at h; exact removeLoop_no_err (b := b1) h

/-- RemoveSession: a frame, and the session is gone; or nothing happened. -/
theorem remove_cases (b : State) (s : Nat) (order : List Nat) :
    ((b.sessions s).isSome = false ∧ removeSession b s order = (b, .err)) ∨
    ((b.sessions s).isSome = true ∧ (removeSession b s order).2 = .panic) ∨
    ((b.sessions s).isSome = true ∧ (removeSession b s order).2 = .ok () ∧ Frame b (removeSession b s order).1 ∧
      (removeSession b s order).1.sessions = b.sessions.del s ∧ (removeSession b s order).1.bySession = b.bySession.del s) := by
  simp only [removeSession]
  cases hs : b.sessions s with
  | none => exact .inl ⟨rfl, rfl⟩
  | some d =>
    refine .inr ?_
    simp only
    cases hl : removeLoop s b ((arrange order ((b.bySession s).getD []).keys).filterMap ((b.bySession s).getD []).get) with
    | err => exact absurd hl removeLoop_no_err
    | panic => exact .inl ⟨rfl, rfl⟩
    | ok b' =>
      obtain ⟨f, f2, f3⟩ := removeLoop_frame hl
      refine .inr ⟨rfl, rfl, ?_, ?_, ?_⟩
      · exact ⟨f.next, f.pending, f.invByCall, f.idGen, f.det, f.tree, f.objs, f.byp, f.wcs⟩
      · simp only [f2]
      · simp only [f3]

/-- UNREGISTER: a frame, or nothing happened. -/
theorem unregister_cases (b : State) (s q i : Nat) :
    (unregister b s q i = (b, .err)) ∨ ((unregister b s q i).2 = .panic) ∨
    (∃ m a, b.bySession s = some m ∧ m.get i = some a ∧
      (unregister b s q i).2 = .ok (.unregistered q, s) ∧ Frame b (unregister b s q i).1 ∧
      (unregister b s q i).1.sessions = b.sessions ∧
      (∀ s', s' ≠ s → (unregister b s q i).1.bySession s' = b.bySession s') ∧
      (∃ m', (unregister b s q i).1.bySession s = some m' ∧ ∀ j a', m'.get j = some a' → m.get j = some a')) := by
  simp only [unregister]
  cases hm : b.bySession s with
  | none => exact .inl rfl
  | some m =>
    simp only
    split
    · exact .inl rfl
    · cases hg : m.get i with
      | none => exact .inr (.inl rfl)
      | some a =>
        refine .inr (.inr ⟨m, a, rfl, hg, rfl, ?_⟩)
        simp only
        split
        · refine ⟨⟨rfl, rfl, rfl, rfl, rfl, rfl, ?_, ?_, ?_⟩, rfl, ?_, ?_⟩
          · intro a'
            simp only [hset]
            split
            · rename_i e; subst e; exact ⟨rfl, rfl, fun _ h => h⟩
            · exact ⟨rfl, rfl, fun _ h => h⟩
          · intro p a' h
            simp only [FMap.del_apply] at h
            split at h
            · cases h
            · exact h
          · intro p a' h
            simp only at h
            split at h
            · rw [AMap.get_del] at h
              split at h
              · cases h
              · exact h
            · exact h
          · intro s' hs'
            simp [FMap.set_apply, hs']
          · refine ⟨_, FMap.set_same .., fun j a' h => ?_⟩
            rw [AMap.get_del] at h
            split at h
            · cases h
            · exact h
        · refine ⟨⟨rfl, rfl, rfl, rfl, rfl, rfl, ?_, fun _ _ h => h, fun _ _ h => h⟩, rfl, fun _ _ => rfl, ?_⟩
          · intro a'
            simp only [hset]
            split
            · rename_i e; subst e; exact ⟨rfl, rfl, fun _ h => h⟩
            · exact ⟨rfl, rfl, fun _ h => h⟩
          · exact ⟨m, hm, fun _ _ h => h⟩

/-- The INVOCATION for a CALL. -/
def invocationFor (b : State) (a inv : Nat) (sid : Nat) (o : GoMap) (p : Str) (args : GoSlice) (kwargs : GoMap) (bin : Bin)
    (c : SessionDetails) : Msg :=
  let d := invocationDetails (if b.details then b.sessions sid else none) sid p (o.flag optProgress) (o.flag optReceiveProgress)
  if bin.binary && c.static then newInvocationBinary inv (b.heap a).id (some d) bin.payload bin.serializer
  else newInvocation inv (b.heap a).id (some d) args kwargs

theorem pick_no_err (g : Reg) (rnd : Nat) : pick g rnd ≠ .err := by
  simp only [pick]
  split
  · split
    · simp
    · split
      · simp
      · split
        · simp
        · split <;> simp
  · split <;> simp

/-- CALL: refused, panic, or forwarded (to a callee that may be gone) under a new or an old invocation ID. -/
theorem call_cases (w : Str → Str → Bool) (b : State) (sid req : Nat) (o : GoMap) (p : Str) (args : GoSlice) (kwargs : GoMap) (bin : Bin)
    (order : List Str) (rnd : Nat) :
    ((lookup w order b p = none ∨ ∃ a, lookup w order b p = some a ∧ (b.heap a).registrants = []) ∧
      call w b sid req o p args kwargs bin order rnd = (b, .ok (noSuchProcedure req, sid))) ∨
    ((call w b sid req o p args kwargs bin order rnd).2 = .panic ∧ ∃ a, lookup w order b p = some a ∧ (b.heap a).registrants ≠ [] ∧
      ((b.heap a).callees = [] ∨ (b.details = true ∧ b.sessions sid = none))) ∨
    (∃ a callee nc inv, lookup w order b p = some a ∧ (b.heap a).registrants ≠ [] ∧ pick (b.heap a) rnd = .ok (callee, nc) ∧
      (((b.invByCall (sid, req) = none ∨ o.flag optProgress = false) ∧ inv = (nextID b.idGen).2 ∧
          (call w b sid req o p args kwargs bin order rnd).1 = { b with
            heap := hset b.heap a { b.heap a with nextCallee := nc }
            idGen := (nextID b.idGen).1
            pending := b.pending.set inv ⟨req, sid, callee, o.flag optProgress, o.flag optReceiveProgress⟩
            invByCall := b.invByCall.set (sid, req) inv }) ∨
       (b.invByCall (sid, req) = some inv ∧ o.flag optProgress = true ∧
          (call w b sid req o p args kwargs bin order rnd).1 = { b with heap := hset b.heap a { b.heap a with nextCallee := nc } })) ∧
      ((b.sessions callee = none ∧ (call w b sid req o p args kwargs bin order rnd).2 = .err) ∨
       (∃ c, b.sessions callee = some c ∧ (b.details = true → (b.sessions sid).isSome = true) ∧
         (call w b sid req o p args kwargs bin order rnd).2 = .ok (invocationFor b a inv sid o p args kwargs bin c, callee)))) := by
  simp only [call, invocationFor]
  cases hl : lookup w order b p with
  | none => exact .inl ⟨.inl rfl, rfl⟩
  | some a =>
    simp only
    split
    · rename_i he
      exact .inl ⟨.inr ⟨a, rfl, List.isEmpty_iff.1 he⟩, rfl⟩
    · rename_i hne
      have hne : (b.heap a).registrants ≠ [] := fun e => hne (List.isEmpty_iff.2 e)
      cases hp : pick (b.heap a) rnd with
      | err => exact absurd hp (pick_no_err _ _)
      | panic =>
        refine .inr (.inl ⟨rfl, a, rfl, hne, .inl ?_⟩)
        simp only [pick] at hp
        split at hp
        · split at hp
          · cases hp
          · split at hp
            · cases hp
            · split at hp
              · cases hp
              · split at hp <;> cases hp
        · split at hp
          · assumption
          · cases hp
      | ok x =>
        rcases x with ⟨callee, nc⟩
        simp only
        by_cases hpan : (b.details && (b.sessions sid).isNone) = true
        · refine .inr (.inl ⟨by rw [if_pos hpan], a, rfl, hne, .inr ?_⟩)
          simpa using hpan
        · rw [if_neg hpan]
          have hd : b.details = true → (b.sessions sid).isSome = true := by
            intro hd
            rw [hd] at hpan
            cases hss : b.sessions sid <;> simp [hss] at hpan ⊢
          refine .inr (.inr ⟨a, callee, nc, if ((b.invByCall (sid, req)).isNone || !o.flag optProgress) then (nextID b.idGen).2
            else (b.invByCall (sid, req)).getD 0, rfl, hne, hp, ?_, ?_⟩)
          · cases hi : b.invByCall (sid, req) with
            | none =>
              refine .inl ⟨.inl rfl, ?_⟩
              cases b.sessions callee with
              | none => exact ⟨rfl, rfl⟩
              | some c => simp only; cases (bin.binary && c.static) <;> exact ⟨rfl, rfl⟩
            | some i =>
              cases hf : o.flag optProgress with
              | false =>
                refine .inl ⟨.inr rfl, ?_⟩
                cases b.sessions callee with
                | none => exact ⟨rfl, rfl⟩
                | some c => simp only; cases (bin.binary && c.static) <;> exact ⟨rfl, rfl⟩
              | true =>
                refine .inr ⟨rfl, rfl, ?_⟩
                cases b.sessions callee with
                | none => rfl
                | some c => simp only; cases (bin.binary && c.static) <;> rfl
          · cases hc : b.sessions callee with
            | none => exact .inl ⟨rfl, rfl⟩
            | some c =>
              refine .inr ⟨c, rfl, hd, ?_⟩
              simp only
              split <;> rfl

/-- REGISTER: failed, refused, joined or created. -/
theorem register_cases (b : State) (s q : Nat) (o : GoMap) (p : Str) :
    (b.bySession s = none ∧ register b s q o p = (b, .err)) ∨
    (∃ m, b.bySession s = some m ∧
      ((∃ a, b.byProc p = some a ∧ ((b.heap a).policy = [] ∨ (b.heap a).policy = invokeSingle ∨ (b.heap a).policy ≠ o.text optInvoke) ∧
          register b s q o p = (b, .ok (alreadyExists q, s))) ∨
       (∃ a, b.byProc p = some a ∧ ¬((b.heap a).policy = [] ∨ (b.heap a).policy = invokeSingle ∨ (b.heap a).policy ≠ o.text optInvoke) ∧
          register b s q o p = ({ b with
            heap := hset b.heap a { b.heap a with
              registrants := if (b.heap a).registrants.contains s then (b.heap a).registrants else (b.heap a).registrants ++ [s]
              callees := (b.heap a).callees ++ [s] }
            bySession := b.bySession.set s (m.set (b.heap a).id a) }, .ok (.registered q (b.heap a).id, s))) ∨
       (b.byProc p = none ∧
          register b s q o p = ({ b with
            heap := hset b.heap b.next ⟨(nextID b.idGen).2, p, [s], o.text optInvoke, 0, [s], normMatch (o.text optMatch)⟩
            next := b.next + 1
            idGen := (nextID b.idGen).1
            tree := if normMatch (o.text optMatch) = matchPrefix then b.tree.set p b.next else b.tree
            wc := if normMatch (o.text optMatch) = matchWildcard then b.wc.set p b.next else b.wc
            byProc := b.byProc.set p b.next
            bySession := b.bySession.set s (m.set (nextID b.idGen).2 b.next) }, .ok (.registered q (nextID b.idGen).2, s))))) := by
  simp only [register]
  cases hm : b.bySession s with
  | none => exact .inl ⟨rfl, rfl⟩
  | some m =>
    refine .inr ⟨m, rfl, ?_⟩
    simp only
    cases hp : b.byProc p with
    | none => exact .inr (.inr ⟨rfl, rfl⟩)
    | some a =>
      simp only
      split
      · rename_i hc
        exact .inl ⟨a, rfl, hc, rfl⟩
      · rename_i hc
        exact .inr (.inl ⟨a, rfl, hc, rfl⟩)

/-- The RESULT for a YIELD. -/
def resultFor (r : Nat) (more : Bool) (args : GoSlice) (kwargs : GoMap) (bin : Bin) (c : SessionDetails) : Msg :=
  let details : GoMap := if more then some [(optProgress, .bool true)] else none
  if bin.binary && c.static then newResultBinary r details bin.payload bin.serializer else newResult r details args kwargs

/-- YIELD: no such invocation; progressive or final, for a caller that may be gone. -/
theorem yield_cases (b : State) (i : Nat) (o : GoMap) (args : GoSlice) (kwargs : GoMap) (bin : Bin) :
    (b.pending.get i = none ∧ yield b i o args kwargs bin = (b, .err)) ∨
    (∃ p, b.pending.get i = some p ∧
      (yield b i o args kwargs bin).1 = (if p.receiveProgress && o.flag optProgress then b else { b with pending := b.pending.del i }) ∧
      ((b.sessions p.callerID = none ∧ (yield b i o args kwargs bin).2 = .err) ∨
       (∃ c, b.sessions p.callerID = some c ∧ (yield b i o args kwargs bin).2 =
         .ok (resultFor p.requestID (p.receiveProgress && o.flag optProgress) args kwargs bin c, p.callerID)))) := by
  simp only [yield, resultFor]
  cases hp : b.pending.get i with
  | none => exact .inl ⟨rfl, rfl⟩
  | some p =>
    refine .inr ⟨p, rfl, ?_⟩
    simp only
    cases hc : b.sessions p.callerID with
    | none => exact ⟨rfl, .inl ⟨rfl, rfl⟩⟩
    | some c =>
      simp only
      cases hb : (bin.binary && c.static)
      · exact ⟨rfl, .inr ⟨c, rfl, by simp [hb]⟩⟩
      · exact ⟨rfl, .inr ⟨c, rfl, by simp [hb]⟩⟩

/-- ERROR: not for an invocation, no such invocation, or forwarded. -/
theorem error_cases (b : State) (t i : Nat) (d : GoMap) (u : Str) (args : GoSlice) (kwargs : GoMap) :
    ((t ≠ 68 ∨ b.pending.get i = none) ∧ error b t i d u args kwargs = (b, .err)) ∨
    (t = 68 ∧ ∃ p, b.pending.get i = some p ∧
      error b t i d u args kwargs = ({ b with pending := b.pending.del i }, .ok (newError 48 p.requestID d u args kwargs, p.callerID))) := by
  simp only [error]
  split
  · rename_i h; exact .inl ⟨.inl h, rfl⟩
  · rename_i h
    have h : t = 68 := Classical.not_not.1 h
    cases hp : b.pending.get i with
    | none => exact .inl ⟨.inr rfl, rfl⟩
    | some p => exact .inr ⟨h, p, rfl, rfl⟩

/-! ### Sessions and disclosure -/

/-- Sessions and the disclosure switch are what the history says. -/
structure SInv (h : List Event) (b : State) : Prop where
  sess : ∀ s, b.sessions s = session h s
  bys : ∀ s, (b.bySession s).isSome = (session h s).isSome
  det : b.details = disclosed h

theorem SInv.recv {h : List Event} {b b' : State} (hi : SInv h b) (h1 : b'.sessions = b.sessions)
    (h2 : ∀ s, (b'.bySession s).isSome = (b.bySession s).isSome) (h3 : b'.details = b.details) (s m order rnd r) :
    SInv (⟨.receive s m order rnd, r⟩ :: h) b' := by
  refine ⟨fun s' => ?_, fun s' => ?_, ?_⟩
  · rw [h1, hi.sess]; cases r <;> rfl
  · rw [h2, hi.bys]; cases r <;> rfl
  · rw [h3, hi.det]; cases r <;> rfl

theorem recv_frame (w : Str → Str → Bool) (b : State) (s : Nat) (m : Msg) (order : List Str) (rnd : Nat) :
    (receive w b s m order rnd).2 = .panic ∨
    ((receive w b s m order rnd).1.sessions = b.sessions ∧
     (∀ s', ((receive w b s m order rnd).1.bySession s').isSome = (b.bySession s').isSome) ∧
     (receive w b s m order rnd).1.details = b.details) := by
  cases m with
  | call r o p a k bin =>
    simp only [receive]
    rcases call_cases w b s r o p a k bin order rnd with ⟨-, e⟩ | ⟨e, -⟩ | ⟨a', callee, nc, inv, -, -, -, e, -⟩
    · rw [e]; exact .inr ⟨rfl, fun _ => rfl, rfl⟩
    · exact .inl e
    · rcases e with ⟨-, -, e⟩ | ⟨-, -, e⟩ <;> rw [e] <;> exact .inr ⟨rfl, fun _ => rfl, rfl⟩
  | yield r o a k bin =>
    simp only [receive]
    rcases yield_cases b r o a k bin with ⟨-, e⟩ | ⟨p, -, e, -⟩
    · rw [e]; exact .inr ⟨rfl, fun _ => rfl, rfl⟩
    · rw [e]; split <;> exact .inr ⟨rfl, fun _ => rfl, rfl⟩
  | register r o p =>
    simp only [receive]
    rcases register_cases b s r o p with ⟨-, e⟩ | ⟨m, hm, ⟨a, -, -, e⟩ | ⟨a, -, -, e⟩ | ⟨-, e⟩⟩ <;> rw [e]
    · exact .inr ⟨rfl, fun _ => rfl, rfl⟩
    · exact .inr ⟨rfl, fun _ => rfl, rfl⟩
    · refine .inr ⟨rfl, fun s' => ?_, rfl⟩
      simp only [FMap.set_apply]
      split
      · rename_i e; subst e; rw [hm]; rfl
      · rfl
    · refine .inr ⟨rfl, fun s' => ?_, rfl⟩
      simp only [FMap.set_apply]
      split
      · rename_i e; subst e; rw [hm]; rfl
      · rfl
  | unregister r i =>
    simp only [receive]
    rcases unregister_cases b s r i with e | e | ⟨m, a, hm, -, -, f, f1, f2, m', f3, -⟩
    · rw [e]; exact .inr ⟨rfl, fun _ => rfl, rfl⟩
    · exact .inl e
    · refine .inr ⟨f1, fun s' => ?_, f.det⟩
      by_cases hs : s' = s
      · subst hs; rw [f3, hm]; rfl
      · rw [f2 s' hs]
  | error t r d u a k =>
    simp only [receive]
    rcases error_cases b t r d u a k with ⟨-, e⟩ | ⟨-, p, -, e⟩ <;> rw [e] <;> exact .inr ⟨rfl, fun _ => rfl, rfl⟩
  | _ => exact .inr ⟨rfl, fun _ => rfl, rfl⟩

theorem step_sinv {w : Str → Str → Bool} {h : List Event} {b : State} (hi : SInv h b) (op : Op) (hnp : (step w b op).2 ≠ .panic) :
    SInv (⟨op, (step w b op).2⟩ :: h) (step w b op).1 := by
  cases op with
  | add d =>
    simp only [step, addSession]
    cases hd : (b.sessions d.id).isSome with
    | true =>
      simp only [if_true, Res.map_err]
      exact ⟨hi.sess, hi.bys, hi.det⟩
    | false =>
      simp only [Bool.false_eq_true, if_false, Res.map_ok]
      refine ⟨fun s => ?_, fun s => ?_, hi.det⟩
      · simp only [session, FMap.set_apply, hi.sess, eq_comm]
      · simp only [session, FMap.set_apply]
        by_cases hs : s = d.id
        · simp [hs]
        · simp [hs, Ne.symm hs, hi.bys]
  | has p => exact ⟨hi.sess, hi.bys, hi.det⟩
  | disclose on => exact ⟨hi.sess, hi.bys, rfl⟩
  | remove s order =>
    simp only [step] at hnp ⊢
    rcases remove_cases b s order with ⟨-, e⟩ | ⟨-, e⟩ | ⟨-, e, f, f1, f2⟩
    · rw [e]; exact ⟨hi.sess, hi.bys, hi.det⟩
    · rw [e] at hnp; exact absurd rfl hnp
    · rw [e]
      refine ⟨fun s' => ?_, fun s' => ?_, f.det.trans hi.det⟩
      · simp only [f1, FMap.del_apply, Res.map_ok, session, hi.sess, eq_comm]
      · simp only [f2, FMap.del_apply, Res.map_ok, session]
        by_cases hs : s' = s
        · simp [hs]
        · simp [hs, Ne.symm hs, hi.bys]
  | receive s m order rnd =>
    simp only [step] at hnp ⊢
    rcases recv_frame w b s m order rnd with e | ⟨h1, h2, h3⟩
    · rw [e] at hnp; exact absurd rfl hnp
    · exact hi.recv h1 h2 h3 ..

theorem hist_sinv {w : Str → Str → Bool} {h : List Event} {b : State} (hh : Hist w h b) : SInv h b := by
  induction hh with
  | new => exact ⟨fun _ => rfl, fun _ => rfl, rfl⟩
  | step op hh hnp ih => exact step_sinv ih op hnp

/-! ### Identity of registrations -/

/-- Registration objects and the REGISTERED messages sent. -/
structure RInv (h : List Event) (b : State) : Prop where
  gen : b.idGen ≤ h.length
  obj : ∀ a < b.next, 1 ≤ (b.heap a).id ∧ (b.heap a).id ≤ b.idGen
  inj : ∀ a < b.next, ∀ a' < b.next, (b.heap a).id = (b.heap a').id → a = a'
  byp : ∀ p a, b.byProc p = some a → a < b.next ∧ (b.heap a).procedure = p
  trp : ∀ p a, b.tree.get p = some a → a < b.next ∧ (b.heap a).procedure = p
  wcp : ∀ p a, b.wc.get p = some a → a < b.next ∧ (b.heap a).procedure = p
  sesp : ∀ s m i a, b.bySession s = some m → m.get i = some a → a < b.next ∧ (b.heap a).id = i
  regs : ∀ e ∈ h, ∀ s p i, registeredAs s p i e → ∃ a < b.next, (b.heap a).id = i ∧ (b.heap a).procedure = p
  cal : ∀ a < b.next, ∀ s ∈ (b.heap a).callees, ∃ e ∈ h, registeredAs s (b.heap a).procedure (b.heap a).id e
  born : ∀ a < b.next, idOf h (b.heap a).procedure (b.heap a).id

theorem RInv.frame {h : List Event} {b b' : State} (hi : RInv h b) {e : Event} (he : ∀ s p i, ¬registeredAs s p i e)
    (hn : b'.next = b.next)
    (ho : ∀ a, (b'.heap a).id = (b.heap a).id ∧ (b'.heap a).procedure = (b.heap a).procedure ∧
      (∀ s ∈ (b'.heap a).callees, s ∈ (b.heap a).callees))
    (hb : ∀ p a, b'.byProc p = some a → b.byProc p = some a) (ht : b'.tree = b.tree)
    (hw : ∀ p a, b'.wc.get p = some a → b.wc.get p = some a)
    (hs : ∀ s m i a, b'.bySession s = some m → m.get i = some a → ∃ m0, b.bySession s = some m0 ∧ m0.get i = some a)
    (hg : b.idGen ≤ b'.idGen) (hg' : b'.idGen ≤ b.idGen + 1) : RInv (e :: h) b' where
  gen := by have := hi.gen; simp only [List.length_cons]; omega
  obj a ha := by
    rw [hn] at ha
    have := hi.obj a ha
    rw [(ho a).1]; omega
  inj a ha a' ha' hid := by
    rw [hn] at ha ha'
    rw [(ho a).1, (ho a').1] at hid
    exact hi.inj a ha a' ha' hid
  byp p a h := by rw [hn, (ho a).2.1]; exact hi.byp p a (hb p a h)
  trp p a h := by rw [hn, (ho a).2.1]; rw [ht] at h; exact hi.trp p a h
  wcp p a h := by rw [hn, (ho a).2.1]; exact hi.wcp p a (hw p a h)
  sesp s m i a h1 h2 := by
    obtain ⟨m0, k1, k2⟩ := hs s m i a h1 h2
    rw [hn, (ho a).1]; exact hi.sesp s m0 i a k1 k2
  regs e' he' s p i hr := by
    rcases List.mem_cons.1 he' with rfl | he'
    · exact absurd hr (he s p i)
    · obtain ⟨a, k1, k2, k3⟩ := hi.regs e' he' s p i hr
      exact ⟨a, hn ▸ k1, by rw [(ho a).1]; exact k2, by rw [(ho a).2.1]; exact k3⟩
  cal a ha s hc := by
    rw [hn] at ha
    obtain ⟨e', k1, k2⟩ := hi.cal a ha s ((ho a).2.2 s hc)
    refine ⟨e', List.mem_cons_of_mem _ k1, ?_⟩
    rw [(ho a).1, (ho a).2.1]; exact k2
  born a ha := by
    rw [hn] at ha
    obtain ⟨e', k1, k2⟩ := hi.born a ha
    rw [(ho a).1, (ho a).2.1]
    exact ⟨e', List.mem_cons_of_mem _ k1, k2⟩

theorem RInv.frame' {h : List Event} {b b' : State} (hi : RInv h b) {e : Event} (he : ∀ s p i, ¬registeredAs s p i e) (f : Frame b b')
    (hs : ∀ s m i a, b'.bySession s = some m → m.get i = some a → ∃ m0, b.bySession s = some m0 ∧ m0.get i = some a) : RInv (e :: h) b' :=
  hi.frame he f.next f.objs f.byp f.tree f.wcs hs (by rw [f.idGen]; exact Nat.le_refl _) (by rw [f.idGen]; exact Nat.le_succ _)

theorem RInv.same {h : List Event} {b : State} (hi : RInv h b) {e : Event} (he : ∀ s p i, ¬registeredAs s p i e) : RInv (e :: h) b :=
  hi.frame' he (Frame.rfl' b) fun _ m _ _ h1 h2 => ⟨m, h1, h2⟩

theorem hset_next (b : State) (a nc a' : Nat) :
    (hset b.heap a { b.heap a with nextCallee := nc } a').id = (b.heap a').id ∧
    (hset b.heap a { b.heap a with nextCallee := nc } a').procedure = (b.heap a').procedure ∧
    (hset b.heap a { b.heap a with nextCallee := nc } a').callees = (b.heap a').callees ∧
    (hset b.heap a { b.heap a with nextCallee := nc } a').registrants = (b.heap a').registrants ∧
    (hset b.heap a { b.heap a with nextCallee := nc } a').policy = (b.heap a').policy ∧
    (hset b.heap a { b.heap a with nextCallee := nc } a').mtch = (b.heap a').mtch := by
  simp only [hset]
  split
  · rename_i e; subst e; exact ⟨rfl, rfl, rfl, rfl, rfl, rfl⟩
  · exact ⟨rfl, rfl, rfl, rfl, rfl, rfl⟩

theorem hset_join (b : State) (a s a' : Nat) :
    (hset b.heap a { b.heap a with
      registrants := if (b.heap a).registrants.contains s then (b.heap a).registrants else (b.heap a).registrants ++ [s]
      callees := (b.heap a).callees ++ [s] } a').id = (b.heap a').id ∧
    (hset b.heap a { b.heap a with
      registrants := if (b.heap a).registrants.contains s then (b.heap a).registrants else (b.heap a).registrants ++ [s]
      callees := (b.heap a).callees ++ [s] } a').procedure = (b.heap a').procedure := by
  simp only [hset]
  split
  · rename_i e; subst e; exact ⟨rfl, rfl⟩
  · exact ⟨rfl, rfl⟩

theorem not_registered_of_op {op : Op} {r : Res Out} (h : ∀ s q o p order rnd, op ≠ .receive s (.register q o p) order rnd) :
    ∀ s p i, ¬registeredAs s p i ⟨op, r⟩ := by
  rintro s p i ⟨q, o, order, rnd, q', s', he⟩
  injection he with h1 _
  exact h _ _ _ _ _ _ h1

theorem step_rinv {w : Str → Str → Bool} {h : List Event} {b : State} (hi : RInv h b) (hlen : h.length < maxID) (op : Op)
    (hnp : (step w b op).2 ≠ .panic) : RInv (⟨op, (step w b op).2⟩ :: h) (step w b op).1 := by
  have hg : nextID b.idGen = (b.idGen + 1, b.idGen + 1) := nextID_small (Nat.lt_of_le_of_lt hi.gen hlen)
  cases op with
  | add d =>
    simp only [step, addSession]
    split
    · exact hi.same (not_registered_of_op (by simp))
    · refine hi.frame' (not_registered_of_op (by simp)) ⟨rfl, rfl, rfl, rfl, rfl, rfl, fun _ => ⟨rfl, rfl, fun _ h => h⟩, fun _ _ h => h, fun _ _ h => h⟩ ?_
      intro s m i a h1 h2
      simp only [FMap.set_apply] at h1
      split at h1
      · cases h1; cases h2
      · exact ⟨m, h1, h2⟩
  | has p => exact hi.same (not_registered_of_op (by simp))
  | disclose on =>
    exact hi.frame (not_registered_of_op (by simp)) rfl (fun _ => ⟨rfl, rfl, fun _ h => h⟩) (fun _ _ h => h) rfl (fun _ _ h => h)
      (fun _ m _ _ h1 h2 => ⟨m, h1, h2⟩) (Nat.le_refl _) (Nat.le_succ _)
  | remove s order =>
    simp only [step] at hnp ⊢
    rcases remove_cases b s order with ⟨-, e⟩ | ⟨-, e⟩ | ⟨-, e, f, -, f2⟩
    · rw [e]; exact hi.same (not_registered_of_op (by simp))
    · rw [e] at hnp; exact absurd rfl hnp
    · refine hi.frame' (not_registered_of_op (by simp)) f ?_
      intro s' m i a h1 h2
      rw [f2, FMap.del_apply] at h1
      split at h1
      · cases h1
      · exact ⟨m, h1, h2⟩
  | receive s m order rnd =>
    simp only [step] at hnp ⊢
    cases m with
    | call r o p a k bin =>
      simp only [receive] at hnp ⊢
      rcases call_cases w b s r o p a k bin order rnd with ⟨-, e⟩ | ⟨e, -⟩ | ⟨a', callee, nc, inv, -, -, -, e, -⟩
      · rw [e]; exact hi.same (not_registered_of_op (by simp))
      · rw [e] at hnp; exact absurd rfl hnp
      · rcases e with ⟨-, -, e⟩ | ⟨-, -, e⟩
        · rw [e, hg]
          refine hi.frame (not_registered_of_op (by simp)) rfl (fun a => ?_) (fun _ _ h => h) rfl (fun _ _ h => h)
            (fun _ m _ _ h1 h2 => ⟨m, h1, h2⟩) (Nat.le_succ _) (Nat.le_refl _)
          obtain ⟨e1, e2, e3, -⟩ := hset_next b a' nc a
          exact ⟨e1, e2, fun s h => by rw [e3] at h; exact h⟩
        · rw [e]
          refine hi.frame (not_registered_of_op (by simp)) rfl (fun a => ?_) (fun _ _ h => h) rfl (fun _ _ h => h)
            (fun _ m _ _ h1 h2 => ⟨m, h1, h2⟩) (Nat.le_refl _) (Nat.le_succ _)
          obtain ⟨e1, e2, e3, -⟩ := hset_next b a' nc a
          exact ⟨e1, e2, fun s h => by rw [e3] at h; exact h⟩
    | yield r o a k bin =>
      simp only [receive]
      rcases yield_cases b r o a k bin with ⟨-, e⟩ | ⟨p, -, e, -⟩
      · rw [e]; exact hi.same (not_registered_of_op (by simp))
      · rw [e]
        split
        · exact hi.same (not_registered_of_op (by simp))
        · exact hi.frame (not_registered_of_op (by simp)) rfl (fun _ => ⟨rfl, rfl, fun _ h => h⟩) (fun _ _ h => h) rfl (fun _ _ h => h)
            (fun _ m _ _ h1 h2 => ⟨m, h1, h2⟩) (Nat.le_refl _) (Nat.le_succ _)
    | unregister r i =>
      simp only [receive] at hnp ⊢
      rcases unregister_cases b s r i with e | e | ⟨m, a, hm, -, -, f, -, f2, m', f3, f4⟩
      · rw [e]; exact hi.same (not_registered_of_op (by simp))
      · rw [e] at hnp; exact absurd rfl hnp
      · refine hi.frame' (not_registered_of_op (by simp)) f ?_
        intro s' m'' i a h1 h2
        by_cases hs : s' = s
        · subst hs
          rw [f3] at h1; cases h1
          exact ⟨m, hm, f4 _ _ h2⟩
        · rw [f2 s' hs] at h1; exact ⟨m'', h1, h2⟩
    | error t r d u a k =>
      simp only [receive]
      rcases error_cases b t r d u a k with ⟨-, e⟩ | ⟨-, p, -, e⟩
      · rw [e]; exact hi.same (not_registered_of_op (by simp))
      · rw [e]
        exact hi.frame (not_registered_of_op (by simp)) rfl (fun _ => ⟨rfl, rfl, fun _ h => h⟩) (fun _ _ h => h) rfl (fun _ _ h => h)
            (fun _ m _ _ h1 h2 => ⟨m, h1, h2⟩) (Nat.le_refl _) (Nat.le_succ _)
    | register r o p =>
      simp only [receive]
      rcases register_cases b s r o p with ⟨-, e⟩ | ⟨m, hm, ⟨a, -, -, e⟩ | ⟨a, ha, -, e⟩ | ⟨hp, e⟩⟩
      · rw [e]
        refine hi.same ?_
        rintro _ _ _ ⟨_, _, _, _, _, _, he⟩
        cases he
      · rw [e]
        refine hi.same ?_
        rintro _ _ _ ⟨_, _, _, _, _, _, he⟩
        cases he
      · rw [e]
        obtain ⟨han, hap⟩ := hi.byp p a ha
        have ho := hset_join b a s
        have hreg : registeredAs s p (b.heap a).id
            ⟨.receive s (.register r o p) order rnd, Res.map (fun x => Out.msg x.1 x.2) (.ok (Msg.registered r (b.heap a).id, s))⟩ :=
          ⟨r, o, order, rnd, r, s, rfl⟩
        refine ⟨Nat.le_succ_of_le hi.gen, ?_, ?_, ?_, ?_, ?_, ?_, ?_, ?_, ?_⟩
        · intro a' ha'
          simp only [(ho a').1]
          exact hi.obj a' ha'
        · intro a1 h1 a2 h2 hid
          simp only [(ho a1).1, (ho a2).1] at hid
          exact hi.inj a1 h1 a2 h2 hid
        · intro p' a' h
          simp only [(ho a').2]
          exact hi.byp p' a' h
        · intro p' a' h
          simp only [(ho a').2]
          exact hi.trp p' a' h
        · intro p' a' h
          simp only [(ho a').2]
          exact hi.wcp p' a' h
        · intro s' m' i a' h1 h2
          simp only [(ho a').1]
          simp only [FMap.set_apply] at h1
          split at h1
          · rename_i hs
            subst hs
            cases h1
            rw [AMap.get_set] at h2
            split at h2
            · cases h2; exact ⟨han, by simp [*]⟩
            · exact hi.sesp _ _ _ _ hm h2
          · exact hi.sesp _ _ _ _ h1 h2
        · intro e' he' s' p' i hr
          simp only
          rcases List.mem_cons.1 he' with rfl | he'
          · obtain ⟨q1, o1, or1, rn1, q2, s2, heq⟩ := hr
            injection heq with k1 k2
            injection k1 with k3 k4
            injection k4 with k5 k6 k7
            subst k7
            simp only [Res.map_ok, Res.ok.injEq, Out.msg.injEq, Msg.registered.injEq] at k2
            exact ⟨a, han, by rw [(ho a).1]; exact k2.1.2, by rw [(ho a).2]; exact hap⟩
          · obtain ⟨a', k1, k2, k3⟩ := hi.regs e' he' s' p' i hr
            exact ⟨a', k1, by rw [(ho a').1]; exact k2, by rw [(ho a').2]; exact k3⟩
        · intro a' ha' s' hc
          simp only at ha' hc
          simp only [(ho a').1, (ho a').2]
          simp only [hset] at hc
          split at hc
          · rename_i heq
            subst heq
            simp only [List.mem_append, List.mem_singleton] at hc
            rcases hc with hc | rfl
            · obtain ⟨e', k1, k2⟩ := hi.cal a' ha' s' hc
              exact ⟨e', List.mem_cons_of_mem _ k1, k2⟩
            · refine ⟨_, List.mem_cons_self .., ?_⟩
              rw [hap]; exact hreg
          · obtain ⟨e', k1, k2⟩ := hi.cal a' ha' s' hc
            exact ⟨e', List.mem_cons_of_mem _ k1, k2⟩
        · intro a' ha'
          simp only [(ho a').1, (ho a').2]
          obtain ⟨e', k1, k2⟩ := hi.born a' ha'
          exact ⟨e', List.mem_cons_of_mem _ k1, k2⟩
      · rw [e, hg]
        simp only
        have hreg : registeredAs s p (b.idGen + 1)
            ⟨.receive s (.register r o p) order rnd, Res.map (fun x => Out.msg x.1 x.2) (.ok (Msg.registered r (b.idGen + 1), s))⟩ :=
          ⟨r, o, order, rnd, r, s, rfl⟩
        have hold : ∀ a' < b.next, ∀ g : Reg, hset b.heap b.next g a' = b.heap a' := by
          intro a' ha' g
          simp [hset, Nat.ne_of_lt ha']
        have hnew : ∀ g : Reg, hset b.heap b.next g b.next = g := by intro g; simp [hset]
        refine ⟨Nat.succ_le_succ hi.gen, ?_, ?_, ?_, ?_, ?_, ?_, ?_, ?_, ?_⟩
        · intro a' ha'
          simp only at ha' ⊢
          by_cases hlt : a' < b.next
          · rw [hold a' hlt]; have := hi.obj a' hlt; omega
          · have : a' = b.next := by omega
            subst this
            rw [hnew]; simp
        · intro a1 h1 a2 h2 hid
          simp only at h1 h2 hid
          by_cases k1 : a1 < b.next <;> by_cases k2 : a2 < b.next
          · rw [hold a1 k1, hold a2 k2] at hid; exact hi.inj a1 k1 a2 k2 hid
          · have : a2 = b.next := by omega
            subst this
            rw [hold a1 k1, hnew] at hid
            simp only at hid
            have := (hi.obj a1 k1).2; omega
          · have : a1 = b.next := by omega
            subst this
            rw [hold a2 k2, hnew] at hid
            simp only at hid
            have := (hi.obj a2 k2).2; omega
          · omega
        · intro p' a' h
          simp only [FMap.set_apply] at h ⊢
          split at h
          · cases h; rename_i hpp; rw [hnew]; exact ⟨Nat.lt_succ_self _, hpp.symm⟩
          · obtain ⟨k1, k2⟩ := hi.byp p' a' h
            rw [hold a' k1]; exact ⟨Nat.lt_succ_of_lt k1, k2⟩
        · intro p' a' h
          simp only at h ⊢
          have hcase : (p' = p ∧ a' = b.next) ∨ b.tree.get p' = some a' := by
            split at h
            · rw [AMap.get_set] at h
              split at h
              · cases h; exact .inl ⟨‹_›, rfl⟩
              · exact .inr h
            · exact .inr h
          rcases hcase with ⟨rfl, rfl⟩ | h
          · rw [hnew]; exact ⟨Nat.lt_succ_self _, rfl⟩
          · obtain ⟨k1, k2⟩ := hi.trp p' a' h
            rw [hold a' k1]; exact ⟨Nat.lt_succ_of_lt k1, k2⟩
        · intro p' a' h
          simp only at h ⊢
          have hcase : (p' = p ∧ a' = b.next) ∨ b.wc.get p' = some a' := by
            split at h
            · rw [AMap.get_set] at h
              split at h
              · cases h; exact .inl ⟨‹_›, rfl⟩
              · exact .inr h
            · exact .inr h
          rcases hcase with ⟨rfl, rfl⟩ | h
          · rw [hnew]; exact ⟨Nat.lt_succ_self _, rfl⟩
          · obtain ⟨k1, k2⟩ := hi.wcp p' a' h
            rw [hold a' k1]; exact ⟨Nat.lt_succ_of_lt k1, k2⟩
        · intro s' m' i a' h1 h2
          simp only [FMap.set_apply] at h1 ⊢
          have hcase : (i = b.idGen + 1 ∧ a' = b.next) ∨ ∃ m0, b.bySession s' = some m0 ∧ m0.get i = some a' := by
            split at h1
            · rename_i hs
              subst hs
              cases h1
              rw [AMap.get_set] at h2
              split at h2
              · cases h2; exact .inl ⟨‹_›, rfl⟩
              · exact .inr ⟨m, hm, h2⟩
            · exact .inr ⟨m', h1, h2⟩
          rcases hcase with ⟨rfl, rfl⟩ | ⟨m0, k1, k2⟩
          · rw [hnew]; exact ⟨Nat.lt_succ_self _, rfl⟩
          · obtain ⟨j1, j2⟩ := hi.sesp s' m0 i a' k1 k2
            rw [hold a' j1]; exact ⟨Nat.lt_succ_of_lt j1, j2⟩
        · intro e' he' s' p' i hr
          simp only
          rcases List.mem_cons.1 he' with rfl | he'
          · obtain ⟨q1, o1, or1, rn1, q2, s2, heq⟩ := hr
            injection heq with k1 k2
            injection k1 with k3 k4
            injection k4 with k5 k6 k7
            subst k7
            simp only [Res.map_ok, Res.ok.injEq, Out.msg.injEq, Msg.registered.injEq] at k2
            exact ⟨b.next, Nat.lt_succ_self _, by rw [hnew]; exact k2.1.2, by rw [hnew]⟩
          · obtain ⟨a', k1, k2, k3⟩ := hi.regs e' he' s' p' i hr
            exact ⟨a', Nat.lt_succ_of_lt k1, by rw [hold a' k1]; exact k2, by rw [hold a' k1]; exact k3⟩
        · intro a' ha' s' hc
          simp only at ha' hc ⊢
          by_cases hlt : a' < b.next
          · rw [hold a' hlt] at hc ⊢
            obtain ⟨e', k1, k2⟩ := hi.cal a' hlt s' hc
            exact ⟨e', List.mem_cons_of_mem _ k1, k2⟩
          · have : a' = b.next := by omega
            subst this
            rw [hnew] at hc ⊢
            simp only [List.mem_singleton] at hc
            subst hc
            exact ⟨_, List.mem_cons_self .., hreg⟩
        · intro a' ha'
          simp only at ha' ⊢
          by_cases hlt : a' < b.next
          · rw [hold a' hlt]
            obtain ⟨e', k1, k2⟩ := hi.born a' hlt
            exact ⟨e', List.mem_cons_of_mem _ k1, k2⟩
          · have : a' = b.next := by omega
            subst this
            rw [hnew]
            exact ⟨_, List.mem_cons_self .., s, hreg⟩
    | _ => exact hi.same (not_registered_of_op (by simp))

theorem hist_rinv {w : Str → Str → Bool} {h : List Event} {b : State} (hh : Hist w h b) (hlen : h.length ≤ maxID) : RInv h b := by
  induction hh with
  | new => exact ⟨Nat.le_refl _, by simp [init], by simp [init], by simp [init], by simp [init, AMap.get], by simp [init, AMap.get], by simp [init], by simp, by simp [init], by simp [init]⟩
  | step op hh hnp ih =>
    simp only [List.length_cons] at hlen
    exact step_rinv (ih (by omega)) (by omega) op hnp

end Wamp.Dealer
