import Verif.Props.DealerCalls
import Verif.Lemmas.DealerWho
/-!
# C63, C64, C67–C69, C84: the dealer, leaving and patterns
-/
namespace Wamp.Dealer

variable {w : Str → Str → Bool}

/-- A CALL routed to a registration with attached callees becomes an INVOCATION for one of them. -/
theorem call_at {h : List Event} {b : State} (hS : SInv h b) {x : Nat} {c q : Nat} {o : GoMap} {u : Str} {a : GoSlice} {k : GoMap} {bin : Bin}
    {order : List Str} {rnd : Nat} (hl : lookup w order b u = some x) (hne : (b.heap x).registrants ≠ []) (hce : (b.heap x).callees ≠ [])
    (hatt : ∀ s ∈ (b.heap x).callees, b.sessions s ≠ none) (hd : disclosed h = true → attached h c) :
    ∃ i d a' k' bin' s, (step w b (.receive c (.call q o u a k bin) order rnd)).2 = .ok (.msg (.invocation i (b.heap x).id d a' k' bin') s) ∧
      s ∈ (b.heap x).callees := by
  simp only [step, receive]
  rcases call_cases w b c q o u a k bin order rnd with ⟨h1, -⟩ | ⟨-, y, h1, h2, h3⟩ | ⟨y, callee, nc, inv, h1, -, hpk, -, e2⟩
  · rcases h1 with h1 | ⟨y, h1, h2⟩
    · rw [hl] at h1; cases h1
    · rw [hl] at h1; cases h1; exact absurd h2 hne
  · rw [hl] at h1
    cases h1
    rcases h3 with h3 | ⟨h3, h4⟩
    · exact absurd h3 hce
    · rw [hS.det] at h3
      have := hd h3
      rw [attached, ← hS.sess, h4] at this
      cases this
  · rw [hl] at h1
    cases h1
    have hmem := pick_mem hpk
    rcases e2 with ⟨hn, -⟩ | ⟨cd, hc, -, e2⟩
    · exact absurd hn (hatt _ hmem)
    · obtain ⟨d2, a2, k2, bin2, hsh⟩ := invocationFor_shape b x inv c o u a k bin cd
      rw [e2, hsh]
      exact ⟨_, _, _, _, _, _, rfl, hmem⟩

/-- The members of a registration that nothing bad happened to are attached. -/
theorem tame_attached {h : List Event} {b : State} {p : Str} (hS : SInv h b) (hH : HInv p h b) (hT : TInv p h b) {g : RegView}
    (hg : regOf h p = some g) {x : Nat} (hx : b.byProc p = some x) : ∀ s ∈ (b.heap x).callees, b.sessions s ≠ none := by
  intro s hs hn
  obtain ⟨c1, c2, -⟩ := hT.cs x g hx hg
  rw [c1, ← c2] at hs
  obtain ⟨m, m1, -⟩ := hH.held x s hx hs
  have := hS.bys s
  rw [m1, ← hS.sess, hn] at this
  cases this

/-! ### C63 -/

/-- UNREGISTER leaves callees and sessions alone. -/
theorem unregister_keeps (b : State) (s q i : Nat) :
    (unregister b s q i).1.sessions = b.sessions ∧ ∀ x, ((unregister b s q i).1.heap x).callees = (b.heap x).callees := by
  simp only [unregister]
  cases b.bySession s with
  | none => exact ⟨rfl, fun _ => rfl⟩
  | some m =>
    simp only
    split
    · exact ⟨rfl, fun _ => rfl⟩
    · cases m.get i with
      | none => exact ⟨rfl, fun _ => rfl⟩
      | some a =>
        have : ∀ x, (hset b.heap a { b.heap a with registrants := (b.heap a).registrants.filter (· ≠ s) } x).callees = (b.heap x).callees := by
          intro x; simp only [hset]; split
          · rename_i e; subst e; rfl
          · rfl
        simp only
        split
        · exact ⟨rfl, this⟩
        · exact ⟨rfl, this⟩

/-- **C63** After every history: an UNREGISTER from a session that never registered `p` does not change what a CALL for `p` gives, if `p`
is registered. -/
theorem C63_stranger {h : List Event} {b : State} (hh : Hist w h b) (hlen : h.length < 2 ^ 53) (p : Str)
    (hp : (step w b (.has p)).2 = .ok (.bool true)) (s q i : Nat) (order : List Str) (rnd : Nat)
    (hs : ∀ e ∈ h, ∀ j, ¬registeredAs s p j e)
    (c r : Nat) (o : GoMap) (a : GoSlice) (k : GoMap) (bin : Bin) (order' : List Str) (rnd' : Nat) :
    (step w (step w b (.receive s (.unregister q i) order rnd)).1 (.receive c (.call r o p a k bin) order' rnd')).2 =
      (step w b (.receive c (.call r o p a k bin) order' rnd')).2 := by
  have hR := hist_rinv hh (Nat.le_of_lt hlen)
  have hW := hist_winv hh (Nat.le_of_lt hlen)
  simp only [step, hasProcedure, Res.ok.injEq, Out.bool.injEq] at hp
  cases hx : b.byProc p with
  | none => rw [hx] at hp; cases hp
  | some x =>
    rw [hx] at hp
    have hne : (b.heap x).registrants.isEmpty = false := by simpa using hp
    have hmap : ∀ r1 r2 : Res (Msg × Nat), r1 = r2 → r1.map (fun x => Out.msg x.1 x.2) = r2.map (fun x => Out.msg x.1 x.2) := by
      rintro _ _ rfl; rfl
    simp only [step]
    apply hmap
    simp only [receive, unregister]
    cases hm : b.bySession s with
    | none => rfl
    | some m =>
      simp only
      split
      · rfl
      · cases hg : m.get i with
        | none => rfl
        | some y =>
          obtain ⟨e', h7, h8⟩ := hW.ses s m i y hm hg
          have hyp : (b.heap y).procedure ≠ p := by
            intro e; rw [e] at h8; exact hs e' h7 i h8
          have hyx : x ≠ y := by
            rintro rfl
            exact hyp (hR.byp p x hx).2
          have hheap : hset b.heap y { b.heap y with registrants := (b.heap y).registrants.filter (· ≠ s) } x = b.heap x := by
            simp only [hset]; rw [if_neg hyx]
          simp only
          generalize hset b.heap y { b.heap y with registrants := (b.heap y).registrants.filter (· ≠ s) } = H at hheap ⊢
          have key : ∀ b' : State, b'.heap x = b.heap x → b'.byProc p = some x → b'.sessions = b.sessions → b'.invByCall = b.invByCall →
              b'.idGen = b.idGen → b'.details = b.details →
              (call w b' c r o p a k bin order' rnd').2 = (call w b c r o p a k bin order' rnd').2 := by
            intro b' h1 h2 h3 h4 h5 h6
            have l1 : lookup w order' b' p = some x := by simp [lookup, h2, h1, hne]
            have l2 : lookup w order' b p = some x := by simp [lookup, hx, hne]
            simp only [call, l1, l2, h1, hne, h3, h4, h5, h6, Bool.false_eq_true, if_false]
            cases pick (b.heap x) rnd' with
            | err => rfl
            | panic => rfl
            | ok y =>
              simp only
              split
              · rfl
              · cases b.sessions y.1 with
                | none => rfl
                | some cd => simp only; split <;> rfl
          split
          · refine key _ hheap ?_ rfl rfl rfl rfl
            simp only [FMap.del_apply]
            rw [if_neg]
            · exact hx
            · exact fun h => hyp h.symm
          · exact key _ hheap hx rfl rfl rfl rfl

/-- Session 3 unregisters "q" while "p" is registered by session 2. -/
example : ∃ h b, Hist w h b ∧ h.length < 2 ^ 53 ∧ (step w b (.has (str "p"))).2 = .ok (.bool true) ∧ (∀ e ∈ h, ∀ j, ¬registeredAs 3 (str "p") j e) ∧
    (∃ m, (step w b (unreg 3 2)).2 = .ok (.msg m 3)) := by
  refine ⟨_, _, hist_run [.add (who 1), .add (who 2), .add (who 3), reg 2 "p", reg 3 "q"] rfl, Nat.le_of_ble_eq_true rfl, rfl, ?_, _, rfl⟩
  rintro e he j ⟨q, o, order, rnd, q', s', heq⟩
  simp only [run, exec, List.mem_cons, List.not_mem_nil, or_false] at he
  rcases he with rfl | rfl | rfl | rfl | rfl <;> simp [reg, str] at heq

/-- **C63** what else holds: if nothing bad happened to the registration of `p` before, and an UNREGISTER for it comes from a member, the
other members stay, `p` stays registered, and a CALL for `p` still becomes an INVOCATION under that registration (though maybe for the
session that just unregistered, `C54_unregistered`).  What is missing are UNREGISTERs of old registrations (`C63_old_handle`). -/
theorem C63_members_partial {h : List Event} {b : State} (hh : Hist w h b) (hlen : h.length < 2 ^ 53) (p : Str) (ht : Tame p h)
    (s q i : Nat) (order : List Str) (rnd : Nat) (hi : idOf h p i → ∃ g, regOf h p = some g ∧ g.id = i ∧ s ∈ g.members)
    (hnp : (step w b (.receive s (.unregister q i) order rnd)).2 ≠ .panic) (x : Nat) (hxs : x ≠ s) (hx : x ∈ members h p) :
    let e : Event := ⟨.receive s (.unregister q i) order rnd, (step w b (.receive s (.unregister q i) order rnd)).2⟩
    let b' := (step w b (.receive s (.unregister q i) order rnd)).1
    x ∈ members (e :: h) p ∧ (step w b' (.has p)).2 = .ok (.bool true) ∧
    ∀ c r o a k bin order' rnd', (disclosed h = true → attached h c) →
      ∃ j g d a' k' bin' y, (step w b' (.receive c (.call r o p a k bin) order' rnd')).2 = .ok (.msg (.invocation j g d a' k' bin') y) ∧
        y ∈ members h p ∧ (regOf h p).map RegView.id = some g := by
  simp only
  have hR := hist_rinv hh (Nat.le_of_lt hlen)
  have hS := hist_sinv hh
  have hH := hist_hinv hh (Nat.le_of_lt hlen) ht.held
  have hT := hist_tinv hh (Nat.le_of_lt hlen) ht
  cases hg : regOf h p with
  | none => simp [members, hg] at hx
  | some g =>
    rw [members_def h p hg] at hx
    generalize hop : Op.receive s (.unregister q i) order rnd = op at hnp ⊢
    have hHeld : Held p (⟨op, (step w b op).2⟩ :: h) := by
      subst hop
      cases (step w b (.receive s (.unregister q i) order rnd)).2 with
      | ok y => exact ⟨hi, ht.held⟩
      | err => exact ht.held
      | panic => exact ht.held
    have hh' := hh.step op hnp
    have hS' := hist_sinv hh'
    have hH' := hist_hinv hh' hlen hHeld
    have hmem : x ∈ members (⟨op, (step w b op).2⟩ :: h) p := by
      subst hop
      cases hres : (step w b (.receive s (.unregister q i) order rnd)).2 with
      | panic => exact absurd hres hnp
      | err =>
        have : regOf (⟨.receive s (.unregister q i) order rnd, .err⟩ :: h) p = some g := hg
        rw [members_def _ p this]; exact hx
      | ok y =>
        have : regOf (⟨.receive s (.unregister q i) order rnd, .ok y⟩ :: h) p = if g.id = i then leave s g else some g := by
          simp only [regOf, hg, Option.bind_some]
        have hne : g.members.filter (· ≠ s) ≠ [] := by
          intro e
          rw [List.filter_eq_nil_iff] at e
          exact e x hx (by simpa using hxs)
        split at this
        · rw [leave, if_neg hne] at this
          rw [members_def _ p this]
          simpa using ⟨hx, hxs⟩
        · rw [members_def _ p this]; exact hx
    have hreg : ∃ g', regOf (⟨op, (step w b op).2⟩ :: h) p = some g' ∧ g'.id = g.id := by
      cases hr : regOf (⟨op, (step w b op).2⟩ :: h) p with
      | none => simp [members, hr] at hmem
      | some g' =>
        refine ⟨g', rfl, ?_⟩
        subst hop
        cases hres : (step w b (.receive s (.unregister q i) order rnd)).2 with
        | panic => exact absurd hres hnp
        | err =>
          rw [hres] at hr
          have : regOf (⟨.receive s (.unregister q i) order rnd, .err⟩ :: h) p = some g := hg
          rw [this] at hr; cases hr; rfl
        | ok y =>
          rw [hres] at hr
          have : regOf (⟨.receive s (.unregister q i) order rnd, .ok y⟩ :: h) p = if g.id = i then leave s g else some g := by
            simp only [regOf, hg, Option.bind_some]
          rw [this] at hr
          split at hr
          · simp only [leave] at hr
            split at hr
            · cases hr
            · cases hr; rfl
          · cases hr; rfl
    obtain ⟨g', hg', hid⟩ := hreg
    obtain ⟨z, hz, hz1, -, -, hz2, hz3⟩ := live_obj hH' hg'
    refine ⟨hmem, ?_, ?_⟩
    · show Res.ok (Out.bool (hasProcedure (step w b op).1 p)) = _
      have : hasProcedure (step w b op).1 p = true := by
        simp only [hasProcedure, hz]
        simpa using hz3
      rw [this]
    · intro c r o a k bin order' rnd' hd
      have hkeep : (step w b op).1.sessions = b.sessions ∧ ∀ x, ((step w b op).1.heap x).callees = (b.heap x).callees := by
        subst hop
        exact unregister_keeps b s q i
      have hzb : b.byProc p = some z := by
        have hz0 := hz
        subst hop
        simp only [step, receive] at hz0
        rcases unregister_cases b s q i with e | e | ⟨m, y, -, -, -, f, -⟩
        · rw [e] at hz0; exact hz0
        · exfalso; apply hnp; simp only [step, receive, e]; rfl
        · exact f.byp p z hz0
      obtain ⟨c1, c2, c3⟩ := hT.cs z g hzb hg
      have hce : ((step w b op).1.heap z).callees ≠ [] := by
        rw [hkeep.2, c1]; intro e; rw [e] at hx; cases hx
      have hatt : ∀ s ∈ ((step w b op).1.heap z).callees, (step w b op).1.sessions s ≠ none := by
        rw [hkeep.2, hkeep.1]
        exact tame_attached hS hH hT hg hzb
      have hd' : disclosed (⟨op, (step w b op).2⟩ :: h) = true → attached (⟨op, (step w b op).2⟩ :: h) c := by
        rw [← hS'.det, attached, ← hS'.sess, hkeep.1, hS.sess]
        intro hd1
        refine hd ?_
        rw [← hS.det, ← hd1]
        subst hop
        simp only [step, receive]
        rcases unregister_cases b s q i with e | e | ⟨m, y, -, -, -, f, -⟩
        · rw [e]
        · exfalso; apply hnp; simp only [step, receive, e]; rfl
        · exact f.det.symm
      obtain ⟨j, d, a', k', bin', y, e1, e2⟩ := call_at (q := r) (o := o) (a := a) (k := k) (bin := bin) (rnd := rnd') hS'
        ((lookup_own (w := w) hH' hg' order').trans hz) hz3 hce hatt hd'
      refine ⟨j, _, d, a', k', bin', y, e1, ?_, ?_⟩
      · rw [hkeep.2, c1] at e2
        rw [members_def h p hg]; exact e2
      · rw [← hz1, hid]; rfl

/-- Three members; one unregisters. -/
example : ∃ h b, Hist noWild h b ∧ h.length < 2 ^ 53 ∧ Tame (str "p") h ∧ members h (str "p") = [1, 2, 3] ∧
    (idOf h (str "p") 1 → ∃ g, regOf h (str "p") = some g ∧ g.id = 1 ∧ 2 ∈ g.members) := by
  refine ⟨_, _, hist_run [.add (who 1), .add (who 2), .add (who 3), regWith 1 "p" "last", regWith 2 "p" "last", regWith 3 "p" "last"] (by decide +kernel),
    Nat.le_of_ble_eq_true rfl, ?_, by decide +kernel, fun _ => ⟨⟨1, str "last", [], [1, 2, 3]⟩, by decide +kernel, rfl, by decide⟩⟩
  exact ⟨fun _ => by decide +kernel, fun _ => by decide +kernel, fun _ => by decide +kernel, trivial, trivial, trivial, trivial⟩

/-- **C63 is false**: sessions 1 and 2 shared "p" and both left; session 3 registers "p"; session 1 unregisters its old registration once
more, and "p" is gone although session 3 is registered. -/
theorem C63_old_handle : ∃ h b, Hist noWild h b ∧ members h (str "p") = [3] ∧
    (step noWild b (.has (str "p"))).2 = .ok (.bool true) ∧
    (step noWild b (unreg 1 1)).2 = .ok (.msg (.unregistered 1) 1) ∧
    members (⟨unreg 1 1, (step noWild b (unreg 1 1)).2⟩ :: h) (str "p") = [3] ∧
    (step noWild (step noWild b (unreg 1 1)).1 (.has (str "p"))).2 = .ok (.bool false) ∧
    Event.error? ⟨callOf 3 7 "p", (step noWild (step noWild b (unreg 1 1)).1 (callOf 3 7 "p")).2⟩ =
      some (str "wamp.error.no_such_procedure", 3) := by
  refine ⟨_, _, hist_run [.add (who 1), .add (who 2), .add (who 3), regWith 1 "p" "first", regWith 2 "p" "first", unreg 1 1, unreg 2 1, reg 3 "p"]
    (by decide +kernel), by decide +kernel, rfl, rfl, by decide +kernel, rfl, by decide +kernel⟩

/-! ### C84 -/

/-- **C84** After every history: if `HasProcedure(p)` says yes, some attached session registered `p` and neither unregistered it nor was
removed since.  The converse fails, see `C63_old_handle`, … -/
theorem C84_yes_partial {h : List Event} {b : State} (hh : Hist w h b) (hlen : h.length ≤ 2 ^ 53) (p : Str)
    (hy : (step w b (.has p)).2 = .ok (.bool true)) : ∃ s i, holds h s p i ∧ attached h s := by
  have hW := hist_winv hh hlen
  simp only [step, hasProcedure, Res.ok.injEq, Out.bool.injEq] at hy
  cases hx : b.byProc p with
  | none => rw [hx] at hy; cases hy
  | some x =>
    rw [hx] at hy
    cases hr : (b.heap x).registrants with
    | nil => simp [hr] at hy
    | cons s l =>
      obtain ⟨⟨m, h1, -⟩, h2⟩ := hW.who p x s hx (by rw [hr]; exact List.mem_cons_self ..)
      refine ⟨s, _, h2, ?_⟩
      have := (hist_sinv hh).bys s
      rw [h1] at this
      exact this.symm

/-- … but if every UNREGISTER for `p` came from a session that was a member at the time, the answer is exact. -/
theorem C84_exact {h : List Event} {b : State} (hh : Hist w h b) (hlen : h.length ≤ 2 ^ 53) (p : Str) (hH : Held p h) :
    (step w b (.has p)).2 = .ok (.bool (members h p ≠ [])) := by
  have hI := hist_hinv hh hlen hH
  simp only [step, hasProcedure]
  cases hx : b.byProc p with
  | none => simp [members, hI.dead hx]
  | some x =>
    obtain ⟨g, h0, -, -, -, h4, h5⟩ := hI.live x hx
    rw [members_def h p h0]
    have : g.members ≠ [] := by
      intro e
      cases hr : (b.heap x).registrants with
      | nil => exact h5 hr
      | cons s l =>
        have := (h4 s).1 (by rw [hr]; exact List.mem_cons_self ..)
        rw [e] at this; cases this
    simp [this, h5]

/-- A shared registration that one member left. -/
example : ∃ h b, Hist noWild h b ∧ h.length ≤ 2 ^ 53 ∧ Held (str "p") h ∧ (step noWild b (.has (str "p"))).2 = .ok (.bool true) ∧
    members h (str "p") = [2] := by
  refine ⟨_, _, hist_run [.add (who 1), .add (who 2), regWith 1 "p" "first", regWith 2 "p" "first", unreg 1 1] (by decide +kernel),
    Nat.le_of_ble_eq_true rfl, ⟨fun _ => ⟨⟨1, str "first", [], [1, 2]⟩, by decide +kernel, rfl, by decide⟩, trivial⟩, rfl, by decide +kernel⟩

/-! ### C64 -/

/-- **C64 is false**: an UNREGISTER of an unknown ID from a session that has some registration crashes the dealer; … -/
theorem C64_unregister : ∃ h b, Hist w h b ∧ attached h 1 ∧ (step w b (unreg 1 99)).2 = .panic :=
  ⟨_, _, hist_run [.add (who 1), reg 1 "p"] rfl, rfl, rfl⟩

/-- … so does the removal of a session that registered a shared procedure twice; … -/
theorem C64_remove : ∃ h b, Hist noWild h b ∧ attached h 2 ∧ (step noWild b (.remove 2 [])).2 = .panic :=
  ⟨_, _, hist_run [.add (who 1), .add (who 2), regWith 1 "p" "first", regWith 2 "p" "first", regWith 2 "p" "first"] (by decide +kernel), by rfl,
    by rfl⟩

/-- … a CALL, with another order of the same registrations, after that session was removed (session 2 is still registered); … -/
theorem C64_call : ∃ h b, Hist noWild h b ∧ members h (str "p") = [2] ∧ (step noWild b (callOf 2 7 "p")).2 = .panic :=
  ⟨_, _, hist_run [.add (who 1), .add (who 2), regWith 1 "p" "first", regWith 2 "p" "first", regWith 1 "p" "first", .remove 1 []] (by decide +kernel),
    by decide +kernel, by rfl⟩

/-- … and a CALL from a session that is not attached, if callers are disclosed. -/
theorem C64_disclose : ∃ h b, Hist w h b ∧ (step w b (callOf 1 7 "p")).2 = .panic :=
  ⟨_, _, hist_run [.disclose true, .add (who 2), reg 2 "p"] rfl, rfl⟩

/-- Which CALLs crash. -/
theorem call_panic {b : State} {c r : Nat} {o : GoMap} {u : Str} {a : GoSlice} {k : GoMap} {bin : Bin} {order : List Str} {rnd : Nat} :
    (call w b c r o u a k bin order rnd).2 = .panic ↔ ∃ x, lookup w order b u = some x ∧ (b.heap x).registrants ≠ [] ∧
      ((b.heap x).callees = [] ∨ (b.details = true ∧ b.sessions c = none)) := by
  constructor
  · intro h
    rcases call_cases w b c r o u a k bin order rnd with ⟨-, e⟩ | ⟨-, e⟩ | ⟨x, callee, nc, inv, -, -, -, -, ⟨-, e⟩ | ⟨cd, -, -, e⟩⟩
    · rw [e] at h; cases h
    · exact e
    · rw [e] at h; cases h
    · rw [e] at h; cases h
  · rintro ⟨x, h1, h2, h3⟩
    have h2' : (b.heap x).registrants.isEmpty = false := by simpa using h2
    simp only [call, h1, h2', Bool.false_eq_true, if_false]
    cases hp : pick (b.heap x) rnd with
    | err => exact absurd hp (by
        simp only [pick]
        split
        · split
          · simp
          · split
            · simp
            · split
              · simp
              · split <;> simp
        · split <;> simp)
    | panic => rfl
    | ok y =>
      have hc : (b.heap x).callees ≠ [] := by
        intro e; have := pick_mem (s := y.1) (nc := y.2) hp; rw [e] at this; cases this
      obtain ⟨h4, h5⟩ := h3.resolve_left hc
      simp [h4, h5]

/-- **C64** what does hold: while nobody registered a procedure twice or left a shared registration by UNREGISTER, exactly two calls crash
the dealer: an UNREGISTER from a session that holds registrations, but not that one; and a CALL from a session that is not attached,
with disclosure on, that would otherwise become an INVOCATION. -/
theorem C64_panics_exactly_partial {h : List Event} {b : State} (hh : Hist w h b) (hlen : h.length < 2 ^ 53) (ht : ∀ p, Tame p h) (op : Op) :
    (step w b op).2 = .panic ↔
      (∃ s q i order rnd, op = .receive s (.unregister q i) order rnd ∧ (∃ p, s ∈ members h p) ∧
        ∀ p g, regOf h p = some g → s ∈ g.members → g.id ≠ i) ∨
      (∃ c r o u a k bin order rnd, op = .receive c (.call r o u a k bin) order rnd ∧ disclosed h = true ∧ ¬attached h c ∧
        ∃ m s, (step w (step w b (.disclose false)).1 op).2 = .ok (.msg m s) ∧ ∃ j i d a' k' bin', m = .invocation j i d a' k' bin') := by
  have hS := hist_sinv hh
  have hR := hist_rinv hh (Nat.le_of_lt hlen)
  have hH := fun p => hist_hinv hh (Nat.le_of_lt hlen) (ht p).held
  have hT := fun p => hist_tinv hh (Nat.le_of_lt hlen) (ht p)
  have hmapp : ∀ {α β : Type} (r : Res α) (f : α → β), r.map f = .panic ↔ r = .panic := by
    intro α β r f; cases r <;> simp [Res.map]
  have hlive : ∀ x < b.next, (b.heap x).registrants ≠ [] → ∃ g, b.byProc (b.heap x).procedure = some x ∧ regOf h (b.heap x).procedure = some g ∧
      (b.heap x).callees = g.members ∧ (b.heap x).registrants = g.members := by
    intro x hx hne
    have h1 := ((hH (b.heap x).procedure).gone x hx rfl).resolve_right hne
    obtain ⟨g, h2, -⟩ := (hH _).live x h1
    obtain ⟨h3, h4, -⟩ := (hT _).cs x g h1 h2
    exact ⟨g, h1, h2, h3, h4⟩
  cases op with
  | add d =>
    constructor
    · intro h; simp only [step, addSession] at h; split at h <;> cases h
    · rintro (⟨_, _, _, _, _, h, -⟩ | ⟨_, _, _, _, _, _, _, _, _, h, -⟩) <;> cases h
  | has p =>
    constructor
    · intro h; cases h
    · rintro (⟨_, _, _, _, _, h, -⟩ | ⟨_, _, _, _, _, _, _, _, _, h, -⟩) <;> cases h
  | disclose on =>
    constructor
    · intro h; cases h
    · rintro (⟨_, _, _, _, _, h, -⟩ | ⟨_, _, _, _, _, _, _, _, _, h, -⟩) <;> cases h
  | remove s order =>
    constructor
    · intro h
      simp only [step] at h
      rw [hmapp] at h
      refine absurd h (remove_ok (fun p a h => (hR.byp p a h).2) ?_)
      intro p x hx
      obtain ⟨g, h2, -⟩ := (hH p).live x hx
      obtain ⟨h3, -, h4⟩ := (hT p).cs x g hx h2
      rw [h3]; exact h4
    · rintro (⟨_, _, _, _, _, h, -⟩ | ⟨_, _, _, _, _, _, _, _, _, h, -⟩) <;> cases h
  | receive s m order rnd =>
    cases m with
    | call r o u a k bin =>
      constructor
      · intro h
        simp only [step, receive] at h
        rw [hmapp, call_panic] at h
        obtain ⟨x, h1, h2, h3⟩ := h
        have hx := lookup_lt hR h1
        obtain ⟨g, g1, g2, g3, g4⟩ := hlive x hx h2
        have h3 := h3.resolve_left (by rw [g3, ← g4]; exact h2)
        right
        refine ⟨s, r, o, u, a, k, bin, order, rnd, rfl, by rw [← hS.det]; exact h3.1, ?_, ?_⟩
        · rw [attached, ← hS.sess, h3.2]; simp
        · have hh' := hh.step (.disclose false) (by simp [step])
          obtain ⟨i, d, a', k', bin', y, e1, -⟩ := call_at (q := r) (o := o) (a := a) (k := k) (bin := bin) (order := order) (rnd := rnd) (c := s)
            (u := u) (x := x) (hist_sinv hh') h1 h2 (by show (b.heap x).callees ≠ []; rw [g3, ← g4]; exact h2)
            (tame_attached hS (hH _) (hT _) g2 g1) (by simp [disclosed])
          exact ⟨_, _, e1, _, _, _, _, _, _, rfl⟩
      · rintro (⟨_, _, _, _, _, h, -⟩ | ⟨c, r', o', u', a0, k0, bin0, order', rnd', h, h1, h2, m, y, h3, j, i, d, a', k', bin', rfl⟩)
        · cases h
        · cases h
          obtain ⟨x, nc, cd, l1, l2, l3, -⟩ := invocation_of h3
          simp only [step, receive]
          rw [hmapp, call_panic]
          refine ⟨x, l1, l2, .inr ⟨by rw [hS.det]; exact h1, ?_⟩⟩
          rw [attached, ← hS.sess] at h2
          cases hs : b.sessions s with
          | none => rfl
          | some d => rw [hs] at h2; exact absurd rfl h2
    | unregister q i =>
      constructor
      · intro h
        left
        refine ⟨s, q, i, order, rnd, rfl, ?_⟩
        simp only [step, receive] at h
        rw [hmapp] at h
        simp only [unregister] at h
        cases hm : b.bySession s with
        | none => rw [hm] at h; cases h
        | some m =>
          rw [hm] at h
          simp only at h
          split at h
          · cases h
          · rename_i hemp
            cases hg : m.get i with
            | some x => rw [hg] at h; simp at h
            | none =>
              constructor
              · have : ∃ j, m.get j ≠ none := by
                  apply Classical.byContradiction
                  intro hno
                  apply hemp
                  rw [AMap.isEmpty_iff]
                  intro j
                  exact Classical.byContradiction fun h => hno ⟨j, h⟩
                obtain ⟨j, hj⟩ := this
                obtain ⟨x, hx⟩ := Option.ne_none_iff_exists'.1 hj
                obtain ⟨h1, h2⟩ := (hT (b.heap x).procedure).ses s m j x hm hx rfl
                obtain ⟨g, h3, -⟩ := (hH _).live x h1
                obtain ⟨-, h4, -⟩ := (hT _).cs x g h1 h3
                exact ⟨_, by rw [members_def _ _ h3, ← h4]; exact h2⟩
              · intro p g hp hs hid
                obtain ⟨x, hx, h1, -, -, h2, -⟩ := live_obj (hH p) hp
                obtain ⟨m', h3, h4⟩ := (hH p).held x s hx ((h2 s).2 hs)
                rw [hm] at h3
                cases h3
                rw [← h1, hid, hg] at h4
                cases h4
      · rintro (⟨_, _, _, _, _, h, ⟨p, hp⟩, hno⟩ | ⟨_, _, _, _, _, _, _, _, _, h, -⟩)
        · cases h
          simp only [step, receive]
          rw [hmapp]
          cases hr : regOf h p with
          | none => simp [members, hr] at hp
          | some g =>
            rw [members_def h p hr] at hp
            obtain ⟨x, hx, h1, -, -, h2, -⟩ := live_obj (hH p) hr
            obtain ⟨m, h3, h4⟩ := (hH p).held x s hx ((h2 s).2 hp)
            have hemp : m.isEmpty = false := by
              cases hm : m.isEmpty with
              | false => rfl
              | true => rw [AMap.isEmpty_iff] at hm; rw [hm] at h4; cases h4
            simp only [unregister, h3, hemp, Bool.false_eq_true, if_false]
            cases hg : m.get i with
            | none => rfl
            | some y =>
              exfalso
              obtain ⟨k1, k2⟩ := (hT (b.heap y).procedure).ses s m i y h3 hg rfl
              obtain ⟨g', k3, k4, -⟩ := (hH _).live y k1
              obtain ⟨-, k5, -⟩ := (hT _).cs y g' k1 k3
              exact hno _ g' k3 (by rw [← k5]; exact k2) (k4.trans (hR.sesp s m i y h3 hg).2)
        · cases h
    | register q o p =>
      constructor
      · intro h
        simp only [step, receive] at h
        rw [hmapp] at h
        rcases register_cases b s q o p with ⟨-, e⟩ | ⟨m, hm, ⟨a, -, -, e⟩ | ⟨a, ha, -, e⟩ | ⟨hp, e⟩⟩ <;> rw [e] at h <;> cases h
      · rintro (⟨_, _, _, _, _, h, -⟩ | ⟨_, _, _, _, _, _, _, _, _, h, -⟩) <;> cases h
    | yield i o a k bin =>
      constructor
      · intro h
        simp only [step, receive] at h
        rw [hmapp] at h
        rcases yield_cases b i o a k bin with ⟨-, e⟩ | ⟨p, -, -, ⟨-, e⟩ | ⟨cd, -, e⟩⟩ <;> rw [e] at h <;> cases h
      · rintro (⟨_, _, _, _, _, h, -⟩ | ⟨_, _, _, _, _, _, _, _, _, h, -⟩) <;> cases h
    | error t i d u a k =>
      constructor
      · intro h
        simp only [step, receive] at h
        rw [hmapp] at h
        rcases error_cases b t i d u a k with ⟨-, e⟩ | ⟨-, p, -, e⟩ <;> rw [e] at h <;> cases h
      · rintro (⟨_, _, _, _, _, h, -⟩ | ⟨_, _, _, _, _, _, _, _, _, h, -⟩) <;> cases h
    | _ =>
      constructor
      · intro h; cases h
      · rintro (⟨_, _, _, _, _, h, -⟩ | ⟨_, _, _, _, _, _, _, _, _, h, -⟩) <;> cases h

/-- Two procedures, one of them shared; a member was removed. -/
example : ∃ h b, Hist noWild h b ∧ h.length < 2 ^ 53 ∧ (∀ p, Tame p h) ∧ members h (str "p") = [2] ∧ members h (str "q") = [2] := by
  refine ⟨_, _, hist_run [.add (who 1), .add (who 2), reg 2 "q", regWith 1 "p" "first", regWith 2 "p" "first", .remove 1 []] (by decide +kernel),
    Nat.le_of_ble_eq_true rfl, ?_, by decide +kernel, by decide +kernel⟩
  intro p
  refine ⟨trivial, ?_, ?_, ?_, trivial, trivial, trivial⟩ <;> (rintro rfl; decide +kernel)

/-! ### C67 -/

/-- **C67** After every history: when `RemoveSession(s)` succeeded, `HasProcedure` says no to every procedure that no other session
registered (and still holds); `s` is not attached; and removing it again fails. -/
theorem C67_remove {h : List Event} {b : State} (hh : Hist w h b) (hlen : h.length < 2 ^ 53) (s : Nat) (order : List Nat) (x : Out)
    (hok : (step w b (.remove s order)).2 = .ok x) :
    (∀ p, (∀ y i, y ≠ s → ¬holds h y p i) → (step w (step w b (.remove s order)).1 (.has p)).2 = .ok (.bool false)) ∧
    ¬attached (⟨.remove s order, .ok x⟩ :: h) s ∧ ∀ order', (step w (step w b (.remove s order)).1 (.remove s order')).2 = .err := by
  have hh' := hh.step (.remove s order) (by rw [hok]; simp)
  have hatt : ¬attached (⟨.remove s order, .ok x⟩ :: h) s := by simp [attached, session]
  refine ⟨?_, hatt, ?_⟩
  · intro p hno
    cases hb : hasProcedure (step w b (.remove s order)).1 p with
    | false => rw [← hb]; rfl
    | true =>
      obtain ⟨y, i, h1, -⟩ := C84_yes_partial hh' hlen p (by rw [← hb]; rfl)
      rw [hok] at h1
      exact absurd h1.2 (hno y i fun h => h1.1 h.symm)
  · intro order'
    have := (hist_sinv hh').sess s
    rw [hok] at this
    have hn : session (⟨.remove s order, .ok x⟩ :: h) s = none := by simp [session]
    rw [hn] at this
    show Res.map _ (removeSession _ s order').2 = _
    simp only [removeSession, this]
    rfl

/-- **C67** If every UNREGISTER for `p` came from a member: when the last member of `p` is removed, no CALL for anything becomes an
INVOCATION under a registration of `p`. -/
theorem C67_calls {h : List Event} {b : State} (hh : Hist w h b) (hlen : h.length < 2 ^ 53) (p : Str) (hH : Held p h)
    (s : Nat) (order : List Nat) (x : Out) (hok : (step w b (.remove s order)).2 = .ok x) (hs : ∀ y ∈ members h p, y = s)
    (c r : Nat) (o : GoMap) (u : Str) (a : GoSlice) (k : GoMap) (bin : Bin) (order' : List Str) (rnd : Nat)
    (j i y : Nat) (d : GoMap) (a' : GoSlice) (k' : GoMap) (bin' : Bin) (hi : idOf h p i) :
    (step w (step w b (.remove s order)).1 (.receive c (.call r o u a k bin) order' rnd)).2 ≠ .ok (.msg (.invocation j i d a' k' bin') y) := by
  have hnp : (step w b (.remove s order)).2 ≠ .panic := by rw [hok]; simp
  have hh' := hh.step (.remove s order) hnp
  have hH' : Held p (⟨.remove s order, (step w b (.remove s order)).2⟩ :: h) := hH
  have hR' := hist_rinv hh' hlen
  have hI' := hist_hinv hh' hlen hH'
  intro he
  obtain ⟨z, nc, cd, l1, l2, l3, l4, -⟩ := invocation_of he
  have hz := lookup_lt hR' l1
  have hi' : idOf (⟨.remove s order, (step w b (.remove s order)).2⟩ :: h) p i := by
    obtain ⟨e, h1, h2⟩ := hi
    exact ⟨e, List.mem_cons_of_mem _ h1, h2⟩
  have hproc := (idOf_obj hR' hz l4).1 hi'
  rcases hI'.gone z hz hproc with h1 | h1
  · obtain ⟨g, h2, -⟩ := hI'.live z h1
    rw [hok] at h2
    have h3 : (regOf h p).bind (leave s) = some g := h2
    cases hr : regOf h p with
    | none => rw [hr] at h3; cases h3
    | some g0 =>
      rw [hr] at h3
      have : g0.members.filter (· ≠ s) = [] := by
        rw [List.filter_eq_nil_iff]
        intro y hy
        simp [hs y (by rw [members_def h p hr]; exact hy)]
      simp only [Option.bind_some, leave, this, if_true] at h3
      cases h3
  · exact l2 h1

/-- **C67** what else holds: if nobody registered `p` twice or left it by UNREGISTER while shared, removing another session keeps the
remaining members, and a CALL for `p` becomes an INVOCATION for one of them.  What is missing are the other histories (`C67_broken`) and
CALLs that reach `p` as a pattern (`C69_lost`). -/
theorem C67_others_partial {h : List Event} {b : State} (hh : Hist w h b) (hlen : h.length + 1 < 2 ^ 53) (p : Str) (ht : Tame p h)
    (s : Nat) (order : List Nat) (x : Out) (hok : (step w b (.remove s order)).2 = .ok x) (y : Nat) (hys : y ≠ s) (hy : y ∈ members h p) :
    let b' := (step w b (.remove s order)).1
    (step w b' (.has p)).2 = .ok (.bool true) ∧
    ∀ c r o a k bin order' rnd, (disclosed h = true → attached h c ∧ c ≠ s) →
      ∃ j i d a' k' bin' z, (step w b' (.receive c (.call r o p a k bin) order' rnd)).2 = .ok (.msg (.invocation j i d a' k' bin') z) ∧
        z ∈ members h p ∧ z ≠ s ∧ (regOf h p).map RegView.id = some i := by
  simp only
  have hnp : (step w b (.remove s order)).2 ≠ .panic := by rw [hok]; simp
  have hh' := hh.step (.remove s order) hnp
  rw [hok] at hh'
  have ht' : Tame p (⟨.remove s order, .ok x⟩ :: h) := ⟨trivial, ht⟩
  cases hr : regOf h p with
  | none => simp [members, hr] at hy
  | some g =>
    rw [members_def h p hr] at hy ⊢
    have hr' : regOf (⟨.remove s order, .ok x⟩ :: h) p = some { g with members := g.members.filter (· ≠ s) } := by
      have hne : g.members.filter (· ≠ s) ≠ [] := by
        intro e
        rw [List.filter_eq_nil_iff] at e
        exact e y hy (by simpa using hys)
      show (regOf h p).bind (leave s) = _
      rw [hr, Option.bind_some, leave, if_neg hne]
    constructor
    · rw [C84_exact hh' (by simp only [List.length_cons]; omega) p ht'.held, members_def _ p hr']
      have : g.members.filter (· ≠ s) ≠ [] := List.ne_nil_of_mem (List.mem_filter.2 ⟨hy, by simpa using hys⟩)
      simp only [ne_eq, decide_not] at this
      simp [this]
    · intro c r o a k bin order' rnd hd
      obtain ⟨i, d, a', k', bin', z, e1, e2⟩ := C55_called hh' (by simpa using hlen) p ht' _ hr' c r o a k bin order' rnd (by
        intro h1
        obtain ⟨h2, h3⟩ := hd h1
        simp only [attached, session]
        rw [if_neg fun h => h3 h.symm]
        exact h2)
      simp only [List.mem_filter, decide_eq_true_eq] at e2
      exact ⟨_, _, _, _, _, _, _, e1, e2.1, e2.2, rfl⟩

/-- **C67** … and removing an attached session then always succeeds. -/
theorem C67_succeeds_partial {h : List Event} {b : State} (hh : Hist w h b) (hlen : h.length < 2 ^ 53) (ht : ∀ p, Tame p h)
    (s : Nat) (hs : attached h s) (order : List Nat) : (step w b (.remove s order)).2 = .ok .unit := by
  have hnp : (step w b (.remove s order)).2 ≠ .panic := by
    rw [Ne, C64_panics_exactly_partial hh hlen ht]
    rintro (⟨_, _, _, _, _, h, -⟩ | ⟨_, _, _, _, _, _, _, _, _, h, -⟩) <;> cases h
  rw [attached, ← (hist_sinv hh).sess] at hs
  simp only [step] at hnp ⊢
  rcases remove_cases b s order with ⟨h1, -⟩ | ⟨-, e⟩ | ⟨-, e, -⟩
  · rw [hs] at h1; cases h1
  · rw [e] at hnp; exact absurd rfl hnp
  · rw [e]; rfl

/-- A procedure of session 1 alone, and one that it shares with session 2. -/
example : ∃ h b, Hist noWild h b ∧ h.length + 1 < 2 ^ 53 ∧ (∀ p, Tame p h) ∧ members h (str "p") = [1, 2] ∧ members h (str "q") = [1] ∧
    idOf h (str "q") 1 ∧ (∀ y i, y ≠ 1 → ¬holds h y (str "q") i) ∧ (step noWild b (.remove 1 [])).2 = .ok .unit := by
  refine ⟨_, _, hist_run [.add (who 1), .add (who 2), reg 1 "q", regWith 1 "p" "first", regWith 2 "p" "first"] (by decide +kernel),
    Nat.le_of_ble_eq_true rfl, ?_, by decide +kernel, by decide +kernel, ?_, ?_, by rfl⟩
  · intro p
    refine ⟨?_, ?_, ?_, trivial, trivial, trivial⟩ <;> (rintro rfl; decide +kernel)
  · exact ⟨_, .tail _ (.tail _ (.head _)), 1, _, _, _, _, _, _, rfl⟩
  · intro y i hy hold
    rcases hold with ⟨-, h, -⟩ | ⟨-, h, -⟩ | ⟨h, -⟩ | h
    · exact absurd h (by decide)
    · exact absurd h (by decide)
    · exact hy h.symm
    · exact h

/-- **C67 is false** for others: session 1 registered "p" before and after session 2; when it is removed, a CALL for "p" crashes the dealer,
although session 2 is still registered. -/
theorem C67_broken : ∃ h b, Hist noWild h b ∧ members h (str "p") = [1, 2, 1] ∧ (step noWild b (.remove 1 [])).2 = .ok .unit ∧
    (step noWild (step noWild b (.remove 1 [])).1 (callOf 2 7 "p")).2 = .panic :=
  ⟨_, _, hist_run [.add (who 1), .add (who 2), regWith 1 "p" "first", regWith 2 "p" "first", regWith 1 "p" "first"] (by decide +kernel),
    by decide +kernel, by rfl, by rfl⟩

/-! ### C68, C69 -/

/-- The prefixes in the tree. -/
theorem longest_of {b : State} {u q : Str} {x : Nat} (hq : q <+: u) (hx : b.tree.get q = some x)
    (hlong : ∀ q', q' <+: u → (b.tree.get q').isSome → q'.length ≤ q.length) : longestPrefix b.tree u = some x := by
  cases hl : longestPrefix b.tree u with
  | none => rw [longestPrefix_none hl q hq] at hx; cases hx
  | some y =>
    obtain ⟨q', h1, h2, h3⟩ := longestPrefix_some hl
    have h4 := h3 q hq (by rw [hx]; rfl)
    have h5 := hlong q' h1 (by rw [h2]; rfl)
    have : q' = q := by
      rw [List.prefix_iff_eq_take.1 h1, List.prefix_iff_eq_take.1 hq, Nat.le_antisymm h5 h4]
    rw [this, hx] at h2
    exact h2.symm

/-- **C68** what does hold: if there is no registration for `u` itself, the longest prefix of `u` that was ever registered as a prefix is
`q`, and `q` is registered now, a CALL for `u` becomes an INVOCATION under the registration of `q` for one of its members (if nothing bad
happened to these registrations).  What is missing: longer prefixes whose registration has ended still count (`C68_shadowed`). -/
theorem C68_longest_partial {h : List Event} {b : State} (hh : Hist w h b) (hlen : h.length < 2 ^ 53) (u q : Str) (hu : regOf h u = none)
    (hq : q <+: u) (g : RegView) (hg : regOf h q = some g) (hgm : g.mtch = str "prefix")
    (hlong : ∀ q', q' <+: u → everPrefix h q' → q'.length ≤ q.length) (hH : ∀ q', q' <+: u → Held q' h) (ht : Tame q h)
    (c r : Nat) (o : GoMap) (a : GoSlice) (k : GoMap) (bin : Bin) (order : List Str) (rnd : Nat) (hd : disclosed h = true → attached h c) :
    ∃ j d a' k' bin' s, (step w b (.receive c (.call r o u a k bin) order rnd)).2 = .ok (.msg (.invocation j g.id d a' k' bin') s) ∧
      s ∈ g.members := by
  have hI := fun q' hq' => hist_hinv hh (Nat.le_of_lt hlen) (hH q' hq')
  refine call_live hh (Nat.le_of_lt hlen) ht hg ?_ hd
  have hbu : b.byProc u = none := by
    cases hb : b.byProc u with
    | none => rfl
    | some x =>
      obtain ⟨g', h1, -⟩ := (hI u (List.prefix_rfl)).live x hb
      rw [hu] at h1; cases h1
  obtain ⟨x, hx, -, -, hm, -⟩ := live_obj (hI q hq) hg
  have hmt : (b.heap x).mtch = matchPrefix := by rw [← hm, normMatch_prefix, hgm]
  have htx := (hI q hq).tlive x hx hmt
  have : longestPrefix b.tree u = some x := by
    refine longest_of hq htx fun q' hq' hs => hlong q' hq' ?_
    rw [← (hI q' hq').tre]
    exact Option.isSome_iff_exists.1 hs
  simp only [lookup, hbu, this, hx]

/-- Two prefixes match; the longer one is chosen. -/
example : ∃ h b, Hist noWild h b ∧ h.length < 2 ^ 53 ∧ regOf h (str "a.b.c") = none ∧ regOf h (str "a.b.") = some ⟨2, [], str "prefix", [3]⟩ ∧
    str "a.b." <+: str "a.b.c" ∧ (∀ q', q' <+: str "a.b.c" → everPrefix h q' → q'.length ≤ (str "a.b.").length) ∧ (∀ q', Held q' h) ∧
    Tame (str "a.b.") h := by
  refine ⟨_, _, hist_run [.add (who 1), .add (who 2), .add (who 3), regPattern 2 "a." "prefix", regPattern 3 "a.b." "prefix"] rfl,
    Nat.le_of_ble_eq_true rfl, rfl, rfl, ⟨str "c", by decide⟩, ?_, fun _ => trivial, ?_⟩
  · rintro q' - (⟨h, -⟩ | ⟨h, -⟩ | h)
    · rw [← h]; exact Nat.le_refl _
    · rw [← h]; decide
    · exact h.elim
  · exact ⟨fun _ => by decide +kernel, fun h => absurd h (by decide), trivial, trivial, trivial, trivial⟩

/-- **C68 is false**: "a." is registered as a prefix by session 2; session 3 registered "a.b." and left again; since then, calls for "a.b.c"
find no procedure. -/
theorem C68_shadowed : ∃ h b, Hist w h b ∧ regOf h (str "a.b.c") = none ∧ regOf h (str "a.b.") = none ∧
    regOf h (str "a.") = some ⟨1, [], str "prefix", [2]⟩ ∧ str "a." <+: str "a.b.c" ∧
    Event.error? ⟨callOf 1 7 "a.b.c", (step w b (callOf 1 7 "a.b.c")).2⟩ = some (str "wamp.error.no_such_procedure", 1) :=
  ⟨_, _, hist_run [.add (who 1), .add (who 2), .add (who 3), regPattern 2 "a." "prefix", regPattern 3 "a.b." "prefix", unreg 3 2] rfl,
    rfl, rfl, rfl, ⟨str "b.c", by decide⟩, rfl⟩

/-- **C69** what does hold: if pattern `p` is registered as a wildcard, nobody was removed from that registration since it began, and `u`
matches `p` and no other registration (nor a prefix that was ever registered), a CALL for `u` becomes an INVOCATION under the registration of
`p` for one of its members.  What is missing: the pattern is lost as soon as one member is removed (`C69_lost`). -/
theorem C69_wildcard_partial {h : List Event} {b : State} (hh : Hist w h b) (hlen : h.length < 2 ^ 53) (u p : Str) (hu : regOf h u = none)
    (hp : w u p = true) (g : RegView) (hg : regOf h p = some g) (hgm : g.mtch = str "wildcard") (hin : intact h p)
    (hpre : ∀ q, q <+: u → ¬everPrefix h q)
    (honly : ∀ p' g', regOf h p' = some g' → g'.mtch = str "wildcard" → w u p' = true → p' = p)
    (hH : ∀ p', Held p' h) (ht : Tame p h)
    (c r : Nat) (o : GoMap) (a : GoSlice) (k : GoMap) (bin : Bin) (order : List Str) (rnd : Nat) (hd : disclosed h = true → attached h c) :
    ∃ j d a' k' bin' s, (step w b (.receive c (.call r o u a k bin) order rnd)).2 = .ok (.msg (.invocation j g.id d a' k' bin') s) ∧
      s ∈ g.members := by
  have hI := fun q' => hist_hinv hh (Nat.le_of_lt hlen) (hH q')
  have hT := hist_tinv hh (Nat.le_of_lt hlen) ht
  refine call_live hh (Nat.le_of_lt hlen) ht hg ?_ hd
  have hbu : b.byProc u = none := by
    cases hb : b.byProc u with
    | none => rfl
    | some x =>
      obtain ⟨g', h1, -⟩ := (hI u).live x hb
      rw [hu] at h1; cases h1
  have hl : longestPrefix b.tree u = none := by
    cases hl : longestPrefix b.tree u with
    | none => rfl
    | some y =>
      obtain ⟨q', h1, h2, -⟩ := longestPrefix_some hl
      exact absurd ((hI q').tre.1 ⟨y, h2⟩) (hpre q' h1)
  obtain ⟨x, hx, -, -, hm, -⟩ := live_obj (hI p) hg
  have hmt : (b.heap x).mtch = matchWildcard := by rw [← hm, normMatch_wildcard, hgm]
  have hwx := hT.wcl x hx hmt hin
  simp only [lookup, hbu, hl, hx]
  cases hf : firstWildcard w order b.wc u with
  | none => rw [firstWildcard_none hf p hp] at hwx; cases hwx
  | some y =>
    obtain ⟨p', h1, h2⟩ := firstWildcard_some hf
    obtain ⟨h3, h4⟩ := (hI p').wl y h2
    obtain ⟨g', h5, -, -, h6, -⟩ := (hI p').live y h3
    have : p' = p := honly p' g' h5 (by rw [← normMatch_wildcard, h6, h4]) h1
    rw [this, hwx] at h2
    exact h2.symm

/-- Two members of a pattern. -/
example : ∃ w h b, Hist w h b ∧ h.length < 2 ^ 53 ∧ regOf h (str "a.c") = none ∧ w (str "a.c") (str "a.*") = true ∧
    regOf h (str "a.*") = some ⟨1, str "first", str "wildcard", [2, 3]⟩ ∧ intact h (str "a.*") ∧ (∀ q, ¬everPrefix h q) ∧ (∀ p, Held p h) ∧
    Tame (str "a.*") h := by
  refine ⟨fun _ p => p == str "a.*", _, _, hist_run [.add (who 1), .add (who 2), .add (who 3), regBoth 2 "a.*" "wildcard" "first",
    regBoth 3 "a.*" "wildcard" "first"] (by decide +kernel), Nat.le_of_ble_eq_true rfl, by decide +kernel, by decide, by decide +kernel, ?_, ?_, fun _ => trivial, ?_⟩
  · exact .inr (.inl ⟨rfl, rfl⟩)
  · rintro q (⟨-, -, h⟩ | ⟨-, -, h⟩ | h)
    · exact absurd h (by decide +kernel)
    · exact absurd h (by decide +kernel)
    · exact h
  · exact ⟨fun _ => by decide +kernel, fun _ => by decide +kernel, trivial, trivial, trivial, trivial⟩

/-- **C69 is false**: sessions 2 and 3 share a wildcard registration; after session 2 was removed, calls that match it find no procedure. -/
theorem C69_lost : ∃ w h b, Hist w h b ∧ (∀ u, w u (str "a.*") = true) ∧ regOf h (str "a.*") = some ⟨1, str "first", str "wildcard", [3]⟩ ∧
    Event.error? ⟨callOf 1 7 "a.c", (step w b (callOf 1 7 "a.c")).2⟩ = some (str "wamp.error.no_such_procedure", 1) :=
  ⟨fun _ p => p == str "a.*", _, _, hist_run [.add (who 1), .add (who 2), .add (who 3), regBoth 2 "a.*" "wildcard" "first",
    regBoth 3 "a.*" "wildcard" "first", .remove 2 []] (by decide +kernel), fun _ => beq_self_eq_true _, by decide +kernel, by decide +kernel⟩

end Wamp.Dealer
