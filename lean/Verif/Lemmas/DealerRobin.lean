import Verif.Lemmas.DealerTame
/-!
# The rotation of a round-robin registration
-/
namespace Wamp.Dealer

variable {p : Str}

/-- Is it a CALL? -/
def callOp : Op → Bool
  | .receive _ (.call ..) _ _ => true
  | _ => false

/-- Other calls do not move the rotation and send no INVOCATION. -/
theorem step_notcall {w : Str → Str → Bool} {h : List Event} {b : State} (hS : SInv h b) (hR : RInv h b) (op : Op) (hc : callOp op = false)
    (hnp : (step w b op).2 ≠ .panic) :
    (∀ a < b.next, ((step w b op).1.heap a).id = (b.heap a).id ∧ ((step w b op).1.heap a).nextCallee = (b.heap a).nextCallee) ∧
    b.next ≤ (step w b op).1.next ∧
    ∀ i q d a k bin s, (step w b op).2 ≠ .ok (.msg (.invocation i q d a k bin) s) := by
  cases op with
  | add d =>
    simp only [step, addSession]
    split
    · exact ⟨fun _ _ => ⟨rfl, rfl⟩, Nat.le_refl _, by simp [Res.map]⟩
    · exact ⟨fun _ _ => ⟨rfl, rfl⟩, Nat.le_refl _, by simp [Res.map]⟩
  | has p => exact ⟨fun _ _ => ⟨rfl, rfl⟩, Nat.le_refl _, by simp [step]⟩
  | disclose on => exact ⟨fun _ _ => ⟨rfl, rfl⟩, Nat.le_refl _, by simp [step]⟩
  | remove s order =>
    simp only [step] at hnp ⊢
    rcases remove_cases b s order with ⟨-, e⟩ | ⟨-, e⟩ | ⟨hs, e, f, -, f2⟩
    · rw [e]; exact ⟨fun _ _ => ⟨rfl, rfl⟩, Nat.le_refl _, by simp [Res.map]⟩
    · rw [e] at hnp; exact absurd rfl hnp
    · have hbs := hS.bys s
      rw [← hS.sess, hs] at hbs
      obtain ⟨m, hm⟩ := Option.isSome_iff_exists.1 hbs
      have hnp' : (removeSession b s order).2 ≠ .panic := by rw [e]; simp
      obtain ⟨T, hT, g⟩ := remove_spec (order := order) (fun p a h => (hR.byp p a h).2) hm hs hnp'
      rw [e]
      exact ⟨fun a _ => ⟨(g.objs a).1, (g.objs a).2.2.2.2⟩, by rw [f.next]; exact Nat.le_refl _, by simp [Res.map]⟩
  | receive s m order rnd =>
    simp only [step] at hnp ⊢
    cases m with
    | call r o p0 a k bin => cases hc
    | yield r o a k bin =>
      simp only [receive] at hnp ⊢
      rcases yield_cases b r o a k bin with ⟨-, e⟩ | ⟨p, -, e, e2⟩
      · rw [e]; exact ⟨fun _ _ => ⟨rfl, rfl⟩, Nat.le_refl _, by simp [Res.map]⟩
      · refine ⟨?_, ?_, ?_⟩
        · rw [e]; split <;> exact fun _ _ => ⟨rfl, rfl⟩
        · rw [e]; split <;> exact Nat.le_refl _
        · rcases e2 with ⟨-, e2⟩ | ⟨c, -, e2⟩ <;> rw [e2]
          · simp [Res.map]
          · simp only [resultFor, Res.map]
            split <;> simp [newResult, newResultBinary]
    | error t r d u a k =>
      simp only [receive]
      rcases error_cases b t r d u a k with ⟨-, e⟩ | ⟨-, p, -, e⟩ <;> rw [e]
      · exact ⟨fun _ _ => ⟨rfl, rfl⟩, Nat.le_refl _, by simp [Res.map]⟩
      · exact ⟨fun _ _ => ⟨rfl, rfl⟩, Nat.le_refl _, by simp [Res.map, newError]⟩
    | register r o p0 =>
      simp only [receive]
      rcases register_cases b s r o p0 with ⟨-, e⟩ | ⟨m, hm, ⟨a, -, -, e⟩ | ⟨a, ha, -, e⟩ | ⟨hp, e⟩⟩ <;> rw [e]
      · exact ⟨fun _ _ => ⟨rfl, rfl⟩, Nat.le_refl _, by simp [Res.map]⟩
      · exact ⟨fun _ _ => ⟨rfl, rfl⟩, Nat.le_refl _, by simp [Res.map, alreadyExists, newError]⟩
      · refine ⟨fun x _ => ?_, Nat.le_refl _, by simp [Res.map]⟩
        simp only [hset]
        split
        · rename_i hx; subst hx; exact ⟨rfl, rfl⟩
        · exact ⟨rfl, rfl⟩
      · refine ⟨fun x hx => ?_, Nat.le_succ _, by simp [Res.map]⟩
        simp only [hset]
        rw [if_neg (by omega)]
        exact ⟨rfl, rfl⟩
    | unregister r i =>
      simp only [receive, unregister] at hnp ⊢
      cases hm : b.bySession s with
      | none => exact ⟨fun _ _ => ⟨rfl, rfl⟩, Nat.le_refl _, by simp [Res.map]⟩
      | some m =>
        rw [hm] at hnp
        simp only at hnp ⊢
        split
        · exact ⟨fun _ _ => ⟨rfl, rfl⟩, Nat.le_refl _, by simp [Res.map]⟩
        · rename_i he
          rw [if_neg he] at hnp
          cases hg : m.get i with
          | none => rw [hg] at hnp; exact absurd rfl hnp
          | some a =>
            simp only
            have hob : ∀ x, (hset b.heap a { b.heap a with registrants := (b.heap a).registrants.filter (· ≠ s) } x).id = (b.heap x).id ∧
                (hset b.heap a { b.heap a with registrants := (b.heap a).registrants.filter (· ≠ s) } x).nextCallee = (b.heap x).nextCallee := by
              intro x
              simp only [hset]
              split
              · rename_i hx; subst hx; exact ⟨rfl, rfl⟩
              · exact ⟨rfl, rfl⟩
            split
            · exact ⟨fun x _ => hob x, Nat.le_refl _, by simp [Res.map, newUnregistered]⟩
            · exact ⟨fun x _ => hob x, Nat.le_refl _, by simp [Res.map, newUnregistered]⟩
    | _ => exact ⟨fun _ _ => ⟨rfl, rfl⟩, Nat.le_refl _, by simp [receive, Res.map]⟩

theorem getD_at {l : List Nat} {i : Nat} (h : i < l.length) : l.getD i 0 = l[i] := by
  rw [List.getD, List.getElem?_eq_getElem h]; rfl

/-- The `k`-th session in turn. -/
def turn (l : List Nat) (k : Nat) : Nat := l.getD (k % l.length) 0

/-- `sv` (newest first) are consecutive turns, and `nc` is the next one. -/
def Rot (l sv : List Nat) (nc : Nat) : Prop :=
  ∃ start, sv = ((List.range sv.length).map fun k => turn l (start + k)).reverse ∧ (1 < l.length → nc = (start + sv.length - 1) % l.length + 1)

/-- The sessions served are consecutive turns, and the next one follows. -/
def QInv (p : Str) (h : List Event) (b : State) : Prop :=
  ∀ a r, b.byProc p = some a → regOf h p = some r → r.policy = str "roundrobin" →
    served h p = [] ∨ Rot r.members (served h p) (b.heap a).nextCallee

theorem init_qinv : QInv p [] init := fun _ _ _ h => by cases h

theorem served_step {e : Event} {h : List Event} (hr : regOf (e :: h) p = regOf h p)
    (hn : ∀ i q d a k bin s, e.res = .ok (.msg (.invocation i q d a k bin) s) → (regOf h p).map RegView.id ≠ some q) :
    served (e :: h) p = served h p := by
  rw [served, if_pos hr]
  split
  · rename_i heq
    rw [if_neg (hn _ _ _ _ _ _ _ heq)]
  · rfl

theorem served_call {e : Event} {h : List Event} (hr : regOf (e :: h) p = regOf h p) {i q d a k bin s}
    (he : e.res = .ok (.msg (.invocation i q d a k bin) s)) (hq : (regOf h p).map RegView.id = some q) :
    served (e :: h) p = s :: served h p := by
  rw [served, if_pos hr]
  simp only [he]
  rw [if_pos hq]

theorem mod_succ {n k : Nat} (hn : 0 < n) : (k + 1) % n = if n ≤ k % n + 1 then 0 else k % n + 1 := by
  have h1 := Nat.mod_lt k hn
  rw [Nat.add_mod]
  by_cases h : n = 1
  · subst h; simp [Nat.mod_one]
  · rw [Nat.mod_eq_of_lt (a := 1) (by omega)]
    split
    · have : k % n + 1 = n := by omega
      rw [this, Nat.mod_self]
    · exact Nat.mod_eq_of_lt (by omega)

/-- The position that `pick` uses. -/
def slot (l : List Nat) (nc : Nat) : Nat := if l.length ≤ nc then 0 else nc

theorem slot_lt {l : List Nat} (h : 0 < l.length) (nc : Nat) : slot l nc < l.length := by
  simp only [slot]; split <;> omega

theorem Rot.one {l : List Nat} {nc c nc' : Nat} (h0 : 0 < l.length) (h1 : l.length = 1 → c = l.getD 0 0)
    (h2 : 1 < l.length → c = l.getD (slot l nc) 0 ∧ nc' = slot l nc + 1) : Rot l [c] nc' := by
  refine ⟨slot l nc, ?_, fun hn => ?_⟩
  · have hr : (List.range [c].length).map (fun k => turn l (slot l nc + k)) = [turn l (slot l nc)] := rfl
    rw [hr, List.reverse_singleton, turn]
    by_cases hn : 1 < l.length
    · rw [(h2 hn).1, Nat.mod_eq_of_lt (slot_lt h0 nc)]
    · have : l.length = 1 := by omega
      rw [h1 this, this, Nat.mod_one]
  · rw [(h2 hn).2]
    have : slot l nc + [c].length - 1 = slot l nc := rfl
    rw [this, Nat.mod_eq_of_lt (slot_lt h0 nc)]

theorem Rot.next {l sv : List Nat} {nc c nc' : Nat} (hr : Rot l sv nc) (hs : sv ≠ []) (h0 : 0 < l.length) (h1 : l.length = 1 → c = l.getD 0 0)
    (h2 : 1 < l.length → c = l.getD (slot l nc) 0 ∧ nc' = slot l nc + 1) : Rot l (c :: sv) nc' := by
  obtain ⟨start, k1, k2⟩ := hr
  have hpos : 0 < sv.length := List.length_pos_iff.2 hs
  obtain ⟨x, hx⟩ : ∃ x, start + sv.length = x + 1 := ⟨start + sv.length - 1, by omega⟩
  have hslot : 1 < l.length → slot l nc = (x + 1) % l.length := by
    intro hn
    have := k2 hn
    rw [hx, Nat.add_sub_cancel] at this
    rw [mod_succ h0, ← this, slot]
  refine ⟨start, ?_, fun hn => ?_⟩
  · have hc : c = turn l (start + sv.length) := by
      rw [turn, hx]
      by_cases hn : 1 < l.length
      · rw [(h2 hn).1, hslot hn]
      · have : l.length = 1 := by omega
        rw [h1 this, this, Nat.mod_one]
    rw [List.length_cons, List.range_succ, List.map_append, List.reverse_append, ← k1, List.map_singleton,
      List.reverse_singleton, List.singleton_append, hc]
  · rw [(h2 hn).2, hslot hn, List.length_cons]
    have : start + (sv.length + 1) - 1 = x + 1 := by omega
    rw [this]

theorem pick_robin {g : Reg} {rnd callee nc : Nat} (hp : pick g rnd = .ok (callee, nc)) (h1 : g.policy = str "roundrobin") :
    (g.callees.length = 1 → callee = g.callees.getD 0 0) ∧
    (1 < g.callees.length → callee = g.callees.getD (slot g.callees g.nextCallee) 0 ∧
      nc = slot g.callees g.nextCallee + 1) ∧ 0 < g.callees.length := by
  simp only [pick] at hp
  split at hp
  · rename_i hl
    refine ⟨fun h => by omega, fun _ => ?_, by omega⟩
    rw [if_neg (by rw [h1]; decide), if_neg (by rw [h1]; decide), if_pos (show g.policy = invokeRoundRobin from h1)] at hp
    simp only [Res.ok.injEq, Prod.mk.injEq] at hp
    exact ⟨hp.1.symm, hp.2.symm⟩
  · rename_i hl
    cases hg : g.callees with
    | nil => rw [hg] at hp; cases hp
    | cons c cs =>
      rw [hg] at hp hl
      cases hp
      refine ⟨fun _ => rfl, fun h => absurd h hl, by simp⟩

theorem step_qinv {w : Str → Str → Bool} {h : List Event} {b : State} (hS : SInv h b) (hR : RInv h b) (hH : HInv p h b) (hT : TInv p h b)
    (hq : QInv p h b) (op : Op) (hnp : (step w b op).2 ≠ .panic)
    (hR' : RInv (⟨op, (step w b op).2⟩ :: h) (step w b op).1) (hH' : HInv p (⟨op, (step w b op).2⟩ :: h) (step w b op).1)
    (hlook : ∀ order u a, lookup w order b u = some a → a < b.next) :
    QInv p (⟨op, (step w b op).2⟩ :: h) (step w b op).1 := by
  intro a r ha hr hpol
  by_cases hch : regOf (⟨op, (step w b op).2⟩ :: h) p = regOf h p
  · have hr0 : regOf h p = some r := hch ▸ hr
    have hb0 : ∃ a0, b.byProc p = some a0 := by
      cases hb : b.byProc p with
      | none => rw [hH.dead hb] at hr0; cases hr0
      | some a0 => exact ⟨a0, rfl⟩
    obtain ⟨a0, ha0⟩ := hb0
    obtain ⟨r1, k0, kid, kpol, -⟩ := hH.live a0 ha0
    rw [hr0] at k0; cases k0
    obtain ⟨r2, l0, lid, -⟩ := hH'.live a ha
    rw [hr] at l0; cases l0
    obtain ⟨ha1, ha2⟩ := hR.byp p a0 ha0
    have hold := hq a0 r ha0 hr0 hpol
    cases hc : callOp op with
    | false =>
      obtain ⟨e1, e2, e3⟩ := step_notcall hS hR op hc hnp
      have haa : a = a0 := hR'.inj a (hR'.byp p a ha).1 a0 (by omega) (by rw [← lid, (e1 a0 ha1).1, kid])
      subst haa
      rw [served_step hch (fun i q d a k bin s he => (e3 _ _ _ _ _ _ _ he).elim), (e1 a ha1).2]
      exact hold
    | true =>
      obtain ⟨s, cr, co, cp, ca, ck, cbin, order, rnd, rfl⟩ : ∃ s cr co cp ca ck cbin order rnd, op = .receive s (.call cr co cp ca ck cbin) order rnd := by
        cases op with
        | receive s m order rnd =>
          cases m with
          | call cr co cp ca ck cbin => exact ⟨_, _, _, _, _, _, _, _, _, rfl⟩
          | _ => cases hc
        | _ => cases hc
      simp only [step, receive] at *
      rcases call_cases w b s cr co cp ca ck cbin order rnd with ⟨-, e⟩ | ⟨e, -⟩ | ⟨a', callee, nc, inv, hl, hne, hpk, e, e2⟩
      · rw [e] at ha hch ⊢
        simp only at ha ⊢
        rw [ha0] at ha
        cases ha
        rw [served_step hch (by simp [Res.map, noSuchProcedure, newError])]
        exact hold
      · rw [e] at hnp; exact absurd rfl hnp
      · have hst : ((call w b s cr co cp ca ck cbin order rnd).1).byProc = b.byProc ∧
            ((call w b s cr co cp ca ck cbin order rnd).1).heap = hset b.heap a' { b.heap a' with nextCallee := nc } := by
          rcases e with ⟨-, -, e⟩ | ⟨-, -, e⟩ <;> rw [e] <;> exact ⟨rfl, rfl⟩
        rw [hst.1, ha0] at ha
        cases ha
        rw [hst.2]
        obtain ⟨c1, c2, c3⟩ := hT.cs a r ha0 hr0
        by_cases haa : a' = a
        · subst haa
          have hpol' : (b.heap a').policy = str "roundrobin" := kpol ▸ hpol
          obtain ⟨p1, p2, p3⟩ := pick_robin hpk hpol'
          rw [c1] at p1 p2 p3
          have hmem : callee ∈ (b.heap a').registrants := by
            rw [c2]
            by_cases hn : 1 < r.members.length
            · rw [(p2 hn).1, getD_at (slot_lt p3 _)]; exact List.getElem_mem _
            · rw [p1 (by omega), getD_at (by omega)]; exact List.getElem_mem _
          obtain ⟨m, m1, -⟩ := hH.held a' callee ha0 hmem
          have hatt := hS.bys callee
          rw [m1, ← hS.sess] at hatt
          rcases e2 with ⟨hn, -⟩ | ⟨c, -, -, e2⟩
          · rw [hn] at hatt; cases hatt
          · obtain ⟨d', a'', k'', bin'', hsh⟩ := invocationFor_shape b a' inv s co cp ca ck cbin c
            rw [hsh] at e2
            rw [served_call hch (by rw [e2]; rfl) (by rw [hr0]; exact congrArg some kid)]
            right
            have hHa : hset b.heap a' { b.heap a' with nextCallee := nc } a' = { b.heap a' with nextCallee := nc } := by simp [hset]
            rw [hHa]
            by_cases hs0 : served h p = []
            · rw [hs0]
              exact Rot.one p3 p1 p2
            · rcases hold with h0 | h1
              · exact absurd h0 hs0
              · exact h1.next hs0 p3 p1 p2
        · have hHa : hset b.heap a' { b.heap a' with nextCallee := nc } a = b.heap a := by
            simp only [hset]; rw [if_neg (Ne.symm haa)]
          rw [hHa, served_step hch]
          · exact hold
          · intro i q d x k bin s' he hq'
            rcases e2 with ⟨-, e2⟩ | ⟨c, -, -, e2⟩
            · rw [e2] at he; cases he
            · obtain ⟨d', a'', k'', bin'', hsh⟩ := invocationFor_shape b a' inv s co cp ca ck cbin c
              rw [hsh] at e2
              rw [e2] at he
              simp only [Res.map, Res.ok.injEq, Out.msg.injEq, Msg.invocation.injEq] at he
              obtain ⟨⟨-, rfl, -⟩, -⟩ := he
              rw [hr0] at hq'
              simp only [Option.map_some, Option.some.injEq] at hq'
              exact haa (hR.inj a' (hlook _ _ _ hl) a ha1 (by rw [← kid, hq']))
  · left
    rw [served, if_neg hch]

theorem lookup_lt {w : Str → Str → Bool} {h : List Event} {b : State} (hR : RInv h b) {order : List Str} {u : Str} {a : Nat}
    (hl : lookup w order b u = some a) : a < b.next := by
  simp only [lookup] at hl
  split at hl
  · rename_i a' ha'
    split at hl
    · split at hl
      · rename_i q hq
        cases hl
        obtain ⟨p, -, p2, -⟩ := longestPrefix_some hq
        exact (hR.trp p a p2).1
      · cases hl; exact (hR.byp _ a ha').1
    · cases hl; exact (hR.byp _ a ha').1
  · split at hl
    · rename_i q hq
      cases hl
      obtain ⟨p, -, p2, -⟩ := longestPrefix_some hq
      exact (hR.trp p a p2).1
    · obtain ⟨p, -, p2⟩ := firstWildcard_some hl
      exact (hR.wcp p a p2).1

theorem hist_qinv {w : Str → Str → Bool} {h : List Event} {b : State} (hh : Hist w h b) (hlen : h.length ≤ maxID) (ht : Tame p h) : QInv p h b := by
  induction hh with
  | new => exact init_qinv
  | step op hh hnp ih =>
    have hfull := Hist.step op hh hnp
    have hl := hlen
    simp only [List.length_cons] at hl
    have hR := hist_rinv hh (by omega)
    exact step_qinv (hist_sinv hh) hR (hist_hinv hh (by omega) ht.2.held) (hist_tinv hh (by omega) ht.2)
      (ih (by omega) ht.2) op hnp (hist_rinv hfull hlen) (hist_hinv hfull hlen ht.held) fun _ _ _ => lookup_lt hR

/-! ### Windows of the rotation -/

theorem add_mod_lt {c k n : Nat} (hk : k < n) : (c + k) % n = if c % n + k < n then c % n + k else c % n + k - n := by
  have h1 := Nat.mod_lt c (y := n) (by omega)
  rw [Nat.add_mod, Nat.mod_eq_of_lt hk]
  split
  · exact Nat.mod_eq_of_lt (by assumption)
  · rw [Nat.mod_eq_sub_mod (by omega), Nat.mod_eq_of_lt (by omega)]

theorem nodup_inj {l : List Nat} (hl : l.Nodup) {i j : Nat} {hi : i < l.length} {hj : j < l.length} (h : l[i] = l[j]) : i = j := by
  rcases Nat.lt_trichotomy i j with h1 | h1 | h1
  · exact absurd h (List.pairwise_iff_getElem.1 hl i j hi hj h1)
  · exact h1
  · exact absurd h.symm (List.pairwise_iff_getElem.1 hl j i hj hi h1)

/-- A full round consists of all the sessions, each once. -/
theorem round_nodup {l : List Nat} (hl : l.Nodup) (c : Nat) :
    ((List.range l.length).map fun k => turn l (c + k)).Nodup ∧ ∀ s, s ∈ (List.range l.length).map (fun k => turn l (c + k)) ↔ s ∈ l := by
  constructor
  · rw [List.Nodup, List.pairwise_map]
    refine List.Pairwise.imp_of_mem ?_ List.nodup_range
    intro x y hx hy hxy heq
    rw [List.mem_range] at hx hy
    simp only [turn] at heq
    rw [getD_at (Nat.mod_lt _ (by omega)), getD_at (Nat.mod_lt _ (by omega))] at heq
    have := nodup_inj hl heq
    rw [add_mod_lt hx, add_mod_lt hy] at this
    have h1 := Nat.mod_lt c (y := l.length) (by omega)
    split at this <;> split at this <;> omega
  · intro s
    simp only [List.mem_map, List.mem_range]
    constructor
    · rintro ⟨k, hk, rfl⟩
      simp only [turn]
      rw [getD_at (Nat.mod_lt _ (by omega))]
      exact List.getElem_mem _
    · intro hs
      obtain ⟨i, hi, rfl⟩ := List.getElem_of_mem hs
      have h1 := Nat.mod_lt c (y := l.length) (by omega)
      refine ⟨if c % l.length ≤ i then i - c % l.length else i + l.length - c % l.length, by split <;> omega, ?_⟩
      simp only [turn]
      rw [add_mod_lt (by split <;> omega)]
      have : (if (c % l.length + if c % l.length ≤ i then i - c % l.length else i + l.length - c % l.length) < l.length then
          c % l.length + if c % l.length ≤ i then i - c % l.length else i + l.length - c % l.length
        else (c % l.length + if c % l.length ≤ i then i - c % l.length else i + l.length - c % l.length) - l.length) = i := by
        split <;> split <;> omega
      rw [this, getD_at hi]

theorem window {l : List Nat} (L c j : Nat) (hj : j + l.length ≤ L) :
    ((((List.range L).map fun k => turn l (c + k)).reverse.drop j).take l.length) =
      ((List.range l.length).map fun k => turn l (c + (L - j - l.length) + k)).reverse := by
  apply List.ext_getElem
  · simp; omega
  · intro i h1 h2
    simp only [List.length_reverse, List.length_map, List.length_range] at h2
    simp only [List.getElem_take, List.getElem_drop, List.getElem_reverse, List.getElem_map, List.getElem_range, List.length_map,
      List.length_range]
    congr 1
    omega

end Wamp.Dealer
