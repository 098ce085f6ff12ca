import Verif.Lemmas.DealerRobin
import Verif.Lemmas.DealerCount
/-!
# Reading results of the dealer
-/
namespace Wamp.Dealer

variable {w : Str → Str → Bool} {p : Str}

/-- How a CALL became an INVOCATION. -/
theorem invocation_of {b : State} {c r : Nat} {o : GoMap} {u : Str} {a : GoSlice} {k : GoMap} {bin : Bin} {order : List Str} {rnd : Nat}
    {i q : Nat} {d : GoMap} {a' : GoSlice} {k' : GoMap} {bin' : Bin} {s : Nat}
    (he : (step w b (.receive c (.call r o u a k bin) order rnd)).2 = .ok (.msg (.invocation i q d a' k' bin') s)) :
    ∃ x nc cd, lookup w order b u = some x ∧ (b.heap x).registrants ≠ [] ∧ pick (b.heap x) rnd = .ok (s, nc) ∧
      (b.heap x).id = q ∧ b.sessions s = some cd ∧ (b.details = true → (b.sessions c).isSome = true) ∧
      invocationFor b x i c o u a k bin cd = .invocation i q d a' k' bin' ∧
      (((b.invByCall (c, r) = none ∨ o.flag optProgress = false) ∧ i = (nextID b.idGen).2) ∨
       (b.invByCall (c, r) = some i ∧ o.flag optProgress = true)) := by
  simp only [step, receive] at he
  rcases call_cases w b c r o u a k bin order rnd with ⟨-, e⟩ | ⟨e, -⟩ | ⟨x, callee, nc, inv, hl, hne, hpk, e, e2⟩
  · rw [e] at he
    simp [Res.map, noSuchProcedure, newError] at he
  · rw [e] at he; cases he
  · rcases e2 with ⟨-, e2⟩ | ⟨cd, hc, hd, e2⟩
    · rw [e2] at he; cases he
    · rw [e2] at he
      simp only [Res.map_ok, Res.ok.injEq, Out.msg.injEq] at he
      obtain ⟨he, rfl⟩ := he
      obtain ⟨d2, a2, k2, bin2, hsh⟩ := invocationFor_shape b x inv c o u a k bin cd
      have hsh' := hsh
      rw [he] at hsh'
      simp only [Msg.invocation.injEq] at hsh'
      obtain ⟨rfl, rfl, rfl, rfl, rfl, rfl⟩ := hsh'
      refine ⟨x, nc, cd, hl, hne, hpk, rfl, hc, hd, hsh, ?_⟩
      rcases e with ⟨h1, h2, -⟩ | ⟨h1, h2, -⟩
      · exact .inl ⟨h1, h2⟩
      · exact .inr ⟨h1, h2⟩

/-- The registration a CALL is routed to: the exact one, or else a pattern. -/
theorem lookup_cases {b : State} {order : List Str} {u : Str} {x : Nat} (hl : lookup w order b u = some x) :
    b.byProc u = some x ∨ (∃ p, p <+: u ∧ b.tree.get p = some x ∧ ∀ p', p' <+: u → (b.tree.get p').isSome → p'.length ≤ p.length) ∨
    (∃ p, w u p = true ∧ b.wc.get p = some x) := by
  simp only [lookup] at hl
  split at hl
  · rename_i a' ha'
    split at hl
    · split at hl
      · rename_i q hq
        cases hl
        exact .inr (.inl (longestPrefix_some hq))
      · cases hl; exact .inl ha'
    · cases hl; exact .inl ha'
  · split at hl
    · rename_i q hq
      cases hl
      exact .inr (.inl (longestPrefix_some hq))
    · exact .inr (.inr (firstWildcard_some hl))

theorem getD_mem {l : List Nat} {i : Nat} (h : i < l.length) : l.getD i 0 ∈ l := by
  rw [getD_at h]; exact List.getElem_mem _

theorem pick_mem {g : Reg} {rnd s nc : Nat} (h : pick g rnd = .ok (s, nc)) : s ∈ g.callees := by
  simp only [pick] at h
  split at h
  · rename_i hl
    split at h
    · cases h; exact getD_mem (by omega)
    · split at h
      · cases h; exact getD_mem (by omega)
      · split at h
        · simp only [Res.ok.injEq, Prod.mk.injEq] at h
          rw [← h.1]
          split
          · exact getD_mem (by omega)
          · exact getD_mem (by omega)
        · split at h
          · cases h; exact getD_mem (Nat.mod_lt _ (by omega))
          · cases h; exact getD_mem (by omega)
  · cases hc : g.callees with
    | nil => rw [hc] at h; cases h
    | cons c cs => rw [hc] at h; cases h; exact List.mem_cons_self ..

theorem pick_ok {g : Reg} (rnd : Nat) (h : g.callees ≠ []) : ∃ s nc, pick g rnd = .ok (s, nc) := by
  simp only [pick]
  split
  · split
    · exact ⟨_, _, rfl⟩
    · split
      · exact ⟨_, _, rfl⟩
      · split
        · exact ⟨_, _, rfl⟩
        · split
          · exact ⟨_, _, rfl⟩
          · exact ⟨_, _, rfl⟩
  · cases hc : g.callees with
    | nil => exact absurd hc h
    | cons c cs => exact ⟨_, _, rfl⟩

/-- The object behind the present registration. -/
theorem live_obj {h : List Event} {b : State} (hH : HInv p h b) {r : RegView} (hr : regOf h p = some r) :
    ∃ x, b.byProc p = some x ∧ r.id = (b.heap x).id ∧ r.policy = (b.heap x).policy ∧ normMatch r.mtch = (b.heap x).mtch ∧
      (∀ s, s ∈ (b.heap x).registrants ↔ s ∈ r.members) ∧ (b.heap x).registrants ≠ [] := by
  cases hp : b.byProc p with
  | none => rw [hH.dead hp] at hr; cases hr
  | some x =>
    obtain ⟨r', h0, h1, h2, h3, h4, h5⟩ := hH.live x hp
    rw [hr] at h0
    cases h0
    exact ⟨x, rfl, h1, h2, h3, h4, h5⟩

/-- A CALL routed to a registration that nothing bad happened to reaches one of its members. -/
theorem call_live {h : List Event} {b : State} (hh : Hist w h b) (hlen : h.length ≤ maxID) (ht : Tame p h) {r : RegView}
    (hr : regOf h p = some r) {c q : Nat} {o : GoMap} {u : Str} {a : GoSlice} {k : GoMap} {bin : Bin} {order : List Str} {rnd : Nat}
    (hl : lookup w order b u = b.byProc p) (hd : disclosed h = true → attached h c) :
    ∃ i d a' k' bin' s, (step w b (.receive c (.call q o u a k bin) order rnd)).2 = .ok (.msg (.invocation i r.id d a' k' bin') s) ∧
      s ∈ r.members := by
  have hS := hist_sinv hh
  have hH := hist_hinv hh hlen ht.held
  have hT := hist_tinv hh hlen ht
  obtain ⟨x, hx, hid, -, -, -, hne⟩ := live_obj hH hr
  obtain ⟨c1, c2, -⟩ := hT.cs x r hx hr
  rw [hx] at hl
  have hatt : ∀ s ∈ (b.heap x).callees, b.sessions s ≠ none := by
    intro s hs hn
    rw [c1, ← c2] at hs
    obtain ⟨m, m1, -⟩ := hH.held x s hx hs
    have := hS.bys s
    rw [m1, ← hS.sess, hn] at this
    cases this
  simp only [step, receive]
  rcases call_cases w b c q o u a k bin order rnd with ⟨h1, -⟩ | ⟨-, y, h1, h2, h3⟩ | ⟨y, callee, nc, inv, h1, -, hpk, -, e2⟩
  · rcases h1 with h1 | ⟨y, h1, h2⟩
    · rw [hl] at h1; cases h1
    · rw [hl] at h1; cases h1; exact absurd h2 hne
  · rw [hl] at h1
    cases h1
    rcases h3 with h3 | ⟨h3, h4⟩
    · rw [c1, ← c2] at h3; exact absurd h3 hne
    · rw [hS.det] at h3
      have := hd h3
      rw [attached, ← hS.sess, h4] at this
      cases this
  · rw [hl] at h1
    cases h1
    have hmem := pick_mem hpk
    rcases e2 with ⟨hn, -⟩ | ⟨cd, hc, -, e2⟩
    · exact absurd hn (hatt _ hmem)
    · obtain ⟨d2, a2, k2, bin2, hsh⟩ := invocationFor_shape b x inv c o u a k bin cd
      rw [e2, hsh, ← hid]
      exact ⟨_, _, _, _, _, _, rfl, by rw [← c1]; exact hmem⟩

/-- CALL for a procedure that has a registration of its own. -/
theorem lookup_own {h : List Event} {b : State} (hH : HInv p h b) {r : RegView} (hr : regOf h p = some r) (order : List Str) :
    lookup w order b p = b.byProc p := by
  obtain ⟨x, hx, -, -, -, -, hne⟩ := live_obj hH hr
  simp only [lookup, hx]
  rw [if_neg]
  simpa using hne

/-- Its result is an INVOCATION under the registration's ID. -/
theorem idOf_obj {h : List Event} {b : State} (hR : RInv h b) {i x : Nat} (hx : x < b.next) (hid : (b.heap x).id = i) :
    idOf h p i ↔ (b.heap x).procedure = p := by
  constructor
  · rintro ⟨e, he, s, hreg⟩
    obtain ⟨y, y1, y2, y3⟩ := hR.regs e he s p i hreg
    rw [hR.inj x hx y y1 (by rw [hid, y2])]
    exact y3
  · rintro rfl
    rw [← hid]
    exact hR.born x hx

/-! ### Exclusive registrations -/

/-- What an exclusive registration is. -/
def SgInv (p : Str) (h : List Event) : Prop :=
  match regOf h p with
  | none => owner h p = none
  | some r => ∃ x, owner h p = some (x, r.id) ∧ r.members = [x] ∧ (r.policy = [] ∨ r.policy = str "single")

theorem SgInv.quiet {h : List Event} {e : Event} (hs : SgInv p h) (hr : regOf (e :: h) p = regOf h p) (ho : owner (e :: h) p = owner h p) :
    SgInv p (e :: h) := by
  rw [SgInv, hr, ho]; exact hs

theorem Single.tail {e : Event} {h : List Event} (hs : Single p (e :: h)) : Single p h :=
  fun e' he' => hs e' (List.mem_cons_of_mem _ he')

theorem leave_self {r : RegView} {s : Nat} (h : r.members = [s]) : leave s r = none := by
  rw [leave, if_pos]; rw [h]; simp

theorem leave_other {r : RegView} {s x : Nat} (h : r.members = [x]) (hne : x ≠ s) : leave s r = some r := by
  have : r.members.filter (· ≠ s) = r.members := by rw [h]; simp [hne]
  rw [leave, this, if_neg (by rw [h]; simp)]

theorem step_single {h : List Event} {b : State} (hh : Hist w h b) (hlen : h.length < maxID) (ht : Tame p h) (hg : SgInv p h) (op : Op)
    (hnp : (step w b op).2 ≠ .panic) (hs : Single p (⟨op, (step w b op).2⟩ :: h)) :
    tameStep p h ⟨op, (step w b op).2⟩ ∧ SgInv p (⟨op, (step w b op).2⟩ :: h) := by
  have hS := hist_sinv hh
  have hR := hist_rinv hh (Nat.le_of_lt hlen)
  have hH := hist_hinv hh (Nat.le_of_lt hlen) ht.held
  have hT := hist_tinv hh (Nat.le_of_lt hlen) ht
  cases op with
  | add d =>
    simp only [step, addSession]
    split <;> exact ⟨trivial, hg.quiet rfl rfl⟩
  | has p => exact ⟨trivial, hg.quiet rfl rfl⟩
  | disclose on => exact ⟨trivial, hg.quiet rfl rfl⟩
  | remove s order =>
    refine ⟨trivial, ?_⟩
    simp only [step] at hnp ⊢
    rcases remove_cases b s order with ⟨-, e⟩ | ⟨-, e⟩ | ⟨-, e, -⟩
    · rw [e]; exact hg.quiet rfl rfl
    · rw [e] at hnp; exact absurd rfl hnp
    · rw [e]
      simp only [Res.map_ok]
      have hreg : regOf (⟨.remove s order, .ok .unit⟩ :: h) p = (regOf h p).bind (leave s) := rfl
      have how : owner (⟨.remove s order, .ok .unit⟩ :: h) p = if (owner h p).map Prod.fst = some s then none else owner h p := rfl
      simp only [SgInv] at hg ⊢
      rw [hreg, how]
      cases hr : regOf h p with
      | none => rw [hr] at hg; simp only at hg; simp [hg]
      | some r =>
        rw [hr] at hg
        obtain ⟨x, h1, h2, h3⟩ := hg
        rw [h1]
        by_cases hx : x = s
        · subst hx
          rw [Option.bind_some, leave_self h2]
          simp
        · rw [Option.bind_some, leave_other h2 hx]
          simp only [Option.map_some, Option.some.injEq, hx, if_false]
          exact ⟨x, rfl, h2, h3⟩
  | receive s m order rnd =>
    cases m with
    | call r o p0 a k bin =>
      simp only [step]
      generalize (Res.map (fun x => Out.msg x.1 x.2) (receive w b s (.call r o p0 a k bin) order rnd).2) = res
      cases res <;> exact ⟨trivial, hg.quiet rfl rfl⟩
    | yield r o a k bin =>
      simp only [step]
      generalize (Res.map (fun x => Out.msg x.1 x.2) (receive w b s (.yield r o a k bin) order rnd).2) = res
      cases res <;> exact ⟨trivial, hg.quiet rfl rfl⟩
    | error t r d u a k =>
      simp only [step]
      generalize (Res.map (fun x => Out.msg x.1 x.2) (receive w b s (.error t r d u a k) order rnd).2) = res
      cases res <;> exact ⟨trivial, hg.quiet rfl rfl⟩
    | register q o p0 =>
      simp only [step, receive] at hs ⊢
      rcases register_cases b s q o p0 with ⟨-, e⟩ | ⟨m, hm, ⟨x, -, -, e⟩ | ⟨x, hx, hnot, e⟩ | ⟨hp, e⟩⟩
      · rw [e]; exact ⟨trivial, hg.quiet rfl rfl⟩
      · rw [e]; exact ⟨trivial, hg.quiet rfl rfl⟩
      · rw [e] at hs ⊢
        simp only [Res.map_ok] at hs ⊢
        by_cases hpp : p0 = p
        · subst hpp
          exfalso
          obtain ⟨r, h0, -, h2, -⟩ := hH.live x hx
          simp only [SgInv, h0] at hg
          obtain ⟨_, -, -, h3⟩ := hg
          rw [h2] at h3
          rcases h3 with h3 | h3
          · exact hnot (.inl h3)
          · exact hnot (.inr (.inl h3))
        · exact ⟨fun e => absurd e hpp, hg.quiet (by simp [regOf, hpp]) (by simp [owner, hpp])⟩
      · rw [e] at hs ⊢
        simp only [Res.map_ok] at hs ⊢
        by_cases hpp : p0 = p
        · subst hpp
          have hn := hH.dead hp
          refine ⟨fun _ => by simp [members, hn], ?_⟩
          have hpol := hs _ (List.mem_cons_self ..) s q o order rnd rfl
          simp only [SgInv, regOf, hn, owner, if_true]
          exact ⟨s, rfl, rfl, hpol⟩
        · exact ⟨fun e => absurd e hpp, hg.quiet (by simp [regOf, hpp]) (by simp [owner, hpp])⟩
    | unregister q i =>
      simp only [step, receive] at hnp hs ⊢
      rcases unregister_cases b s q i with e | e | ⟨m, x, hm, hgx, e, -⟩
      · rw [e]; exact ⟨trivial, hg.quiet rfl rfl⟩
      · rw [e] at hnp; exact absurd rfl hnp
      · rw [e] at hs ⊢
        simp only [Res.map_ok] at hs ⊢
        obtain ⟨x1, x2⟩ := hR.sesp s m i x hm hgx
        have hreg : regOf (⟨.receive s (.unregister q i) order rnd, .ok (.msg (.unregistered q) s)⟩ :: h) p =
          (regOf h p).bind fun r => if r.id = i then leave s r else some r := rfl
        have how : owner (⟨.receive s (.unregister q i) order rnd, .ok (.msg (.unregistered q) s)⟩ :: h) p =
          if owner h p = some (s, i) then none else owner h p := rfl
        have htame : idOf h p i → ∃ r, regOf h p = some r ∧ r.id = i ∧ r.members = [s] := by
          intro hid
          have hproc := (idOf_obj hR x1 x2).1 hid
          obtain ⟨k1, k2⟩ := hT.ses s m i x hm hgx hproc
          obtain ⟨r, h0, h1, -⟩ := hH.live x k1
          obtain ⟨-, c2, -⟩ := hT.cs x r k1 h0
          simp only [SgInv, h0] at hg
          obtain ⟨y, -, g2, -⟩ := hg
          rw [c2, g2, List.mem_singleton] at k2
          subst k2
          exact ⟨r, h0, h1.trans x2, g2⟩
        refine ⟨htame, ?_⟩
        simp only [SgInv] at hg ⊢
        rw [hreg, how]
        cases hr : regOf h p with
        | none => rw [hr] at hg; simp only at hg; simp [hg]
        | some r =>
          rw [hr] at hg
          obtain ⟨y, h1, h2, h3⟩ := hg
          rw [Option.bind_some, h1]
          by_cases hi : r.id = i
          · obtain ⟨r', k0, -, k2⟩ := htame (by
              obtain ⟨z, z1, z2, -⟩ := live_obj hH hr
              rw [← hi, z2, ← (hR.byp p z z1).2]
              exact hR.born z (hR.byp p z z1).1)
            rw [hr] at k0
            cases k0
            rw [h2] at k2
            cases k2
            rw [if_pos hi, leave_self h2, if_pos (by rw [hi])]
          · rw [if_neg hi, if_neg (by simp [hi])]
            exact ⟨y, rfl, h2, h3⟩
    | _ => exact ⟨trivial, hg.quiet rfl rfl⟩

theorem hist_single {h : List Event} {b : State} (hh : Hist w h b) (hlen : h.length ≤ maxID) (hs : Single p h) : Tame p h ∧ SgInv p h := by
  induction hh with
  | new => exact ⟨trivial, rfl⟩
  | step op hh hnp ih =>
    simp only [List.length_cons] at hlen
    obtain ⟨h1, h2⟩ := ih (by omega) hs.tail
    obtain ⟨h3, h4⟩ := step_single hh (by omega) h1 h2 op hnp hs
    exact ⟨⟨h3, h1⟩, h4⟩

/-! ### No patterns -/

theorem hist_plain {h : List Event} {b : State} (hh : Hist w h b) (hn : noPatterns h) : b.tree = [] ∧ ∀ p, b.wc.get p = none := by
  induction hh with
  | new => exact ⟨rfl, fun _ => rfl⟩
  | @step h b op hh hnp ih =>
    have ih := ih fun e he => hn e (List.mem_cons_of_mem _ he)
    have shrink : ∀ b b' : State, (b.tree = [] ∧ ∀ p, b.wc.get p = none) → Frame b b' → b'.tree = [] ∧ ∀ p, b'.wc.get p = none := by
      intro b b' h1 f
      refine ⟨f.tree.trans h1.1, fun p => ?_⟩
      cases hw : b'.wc.get p with
      | none => rfl
      | some x => rw [← h1.2 p, f.wcs p x hw]
    cases op with
    | add d =>
      simp only [step, addSession]
      split <;> exact ih
    | has p => exact ih
    | disclose on => exact ih
    | remove s order =>
      simp only [step] at hnp ⊢
      rcases remove_cases b s order with ⟨-, e⟩ | ⟨-, e⟩ | ⟨-, -, f, -⟩
      · rw [e]; exact ih
      · rw [e] at hnp; exact absurd rfl hnp
      · exact shrink _ _ ih f
    | receive s m order rnd =>
      cases m with
      | call r o p0 a k bin =>
        simp only [step, receive] at hnp ⊢
        rcases call_cases w b s r o p0 a k bin order rnd with ⟨-, e⟩ | ⟨e, -⟩ | ⟨a', callee, nc, inv, -, -, -, e, -⟩
        · rw [e]; exact ih
        · rw [e] at hnp; exact absurd rfl hnp
        · rcases e with ⟨-, -, e⟩ | ⟨-, -, e⟩ <;> rw [e] <;> exact ih
      | yield r o a k bin =>
        simp only [step, receive]
        rcases yield_cases b r o a k bin with ⟨-, e⟩ | ⟨p, -, e, -⟩
        · rw [e]; exact ih
        · rw [e]; split <;> exact ih
      | error t r d u a k =>
        simp only [step, receive]
        rcases error_cases b t r d u a k with ⟨-, e⟩ | ⟨-, p, -, e⟩ <;> rw [e] <;> exact ih
      | register q o p0 =>
        have h1 := hn _ (List.mem_cons_self ..) s q o p0 order rnd rfl
        simp only [step, receive]
        rcases register_cases b s q o p0 with ⟨-, e⟩ | ⟨m, hm, ⟨x, -, -, e⟩ | ⟨x, -, -, e⟩ | ⟨-, e⟩⟩ <;> rw [e]
        · exact ih
        · exact ih
        · exact ih
        · simp only
          rw [if_neg (c := normMatch (o.text optMatch) = matchPrefix) (fun e => h1.1 ((normMatch_prefix _).1 e)),
            if_neg (c := normMatch (o.text optMatch) = matchWildcard) (fun e => h1.2 ((normMatch_wildcard _).1 e))]
          exact ih
      | unregister q i =>
        simp only [step, receive] at hnp ⊢
        rcases unregister_cases b s q i with e | e | ⟨m, x, -, -, -, f, -⟩
        · rw [e]; exact ih
        · rw [e] at hnp; exact absurd rfl hnp
        · exact shrink _ _ ih f
      | _ => exact ih

end Wamp.Dealer
