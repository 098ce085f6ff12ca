import Verif.Lemmas.Net
import Verif.Props.Foreign
import Verif.Spec.NetForeign
/-!
# Byte streams with foreign clients carry the messages of Spec/Foreign
-/
namespace Wamp.Net
open Wamp Wamp.System Wamp.Spec Wamp.Session

variable {w : Str → Str → Bool} {c : Nat → Codec} {norm : Nat → Val → Val} {Fit : Nat → Msg → Prop} {F : Nat → Bool}

/-- What the router reads when client `s` has sent `m`. -/
def reading (F : Nat → Bool) (norm : Nat → Val → Val) (s : Nat) (m : Msg) : Msg := if F s then m else received (norm s) m

theorem reading_own {s : Nat} (h : F s = false) (m : Msg) : reading F norm s m = received (norm s) m := by simp [reading, h]
theorem reading_foreign {s : Nat} (h : F s = true) (m : Msg) : reading F norm s m = m := by simp [reading, h]

/-- State `x` of the message level corresponds to `n`. -/
structure OSim (c : Nat → Codec) (norm : Nat → Val → Val) (Fit : Nat → Msg → Prop) (F : Nat → Bool) (n : Net) (x : Sys) : Prop where
  broker : x.broker = n.core.broker
  dealer : x.dealer = n.core.dealer
  client : x.client = n.core.client
  joined : x.joined = n.core.joined
  bh : x.bh = n.core.bh
  dh : x.dh = n.core.dh
  up0 : n.core.up = fun _ => []
  down0 : n.core.down = fun _ => []
  sent : ∀ s, x.sent s = (n.core.sent s).map (reading F norm s)
  up : ∀ s, F s = false → ∃ us, x.up s = us.map (received (norm s)) ∧ (∀ m ∈ us, Fit s m ∧ m ∈ n.core.sent s) ∧ Written (c s) us (n.upBuf s ++ n.upWay s)
  idle : ∀ s, F s = true → x.up s = []
  down : ∀ s, F s = false → (∀ m ∈ x.down s, Fit s m) ∧ Written (c s) (x.down s) (n.downBuf s ++ n.downWay s)
  here : ∀ s, F s = true → n.upBuf s ++ n.upWay s ≠ [] → s ∈ n.core.joined

theorem readFrame_ne {buf p rest : Str} (h : readFrame buf = some (p, rest)) : buf ≠ [] := by
  rintro rfl
  rw [readFrame_short (by simp)] at h
  cases h

theorem readFrame_left {buf p rest : Str} (h : readFrame buf = some (p, rest)) : ∃ pre, buf = pre ++ rest := by
  unfold readFrame at h
  split at h
  · cases h
  · split at h
    · split at h
      · cases h
      · cases h
        exact ⟨_, by rw [List.append_assoc, List.take_append_drop, List.take_append_drop]⟩
    · cases h

theorem handle_joined {y z : Sys} {s : Nat} {m : Msg} {wo : List Str} {so : List Nat} {rnd : Nat} (h : y.handle w s m wo so rnd = some z) :
    z.joined = y.joined ∧ z.client = y.client ∧ z.sent = y.sent ∧ z.up = y.up := by
  obtain ⟨o, e, -⟩ := handle_links (x := y) s m wo so rnd rfl rfl rfl rfl h
  rw [e]
  exact ⟨rfl, rfl, rfl, rfl⟩

/-- What a step is at the message level. -/
theorem osim_act (hc : ∀ s, F s = false → Carried (c s) (norm s) (Fit s)) {n n' : Net} {x : Sys} {got : Nat → List Msg}
    (hs : OSim c norm Fit F n x) (hgot : ∀ s, n.got s = (got s).map (received (norm s)))
    (h : OpenStep w c Fit F n n') :
    ∃ x' got' vs, Log.moves w F ⟨x, got⟩ vs = some ⟨x', got'⟩ ∧
      OSim c norm Fit F n' x' ∧ ∀ s, n'.got s = (got' s).map (received (norm s)) := by
  obtain ⟨h1, h2, h3, h4, h5, h6, h7, h8, h9, h10, hidle, h11, hhere⟩ := hs
  cases h with
  | admin a ha hy =>
    rename_i y
    have : ∃ z, x.act w a = some z ∧ z = { x with broker := z.broker, dealer := z.dealer, bh := z.bh, dh := z.dh, joined := z.joined } ∧
        y = { n.core with broker := z.broker, dealer := z.dealer, bh := z.bh, dh := z.dh, joined := z.joined } ∧ ∀ s ∈ n.core.joined, s ∈ z.joined := by
      rcases ha with ⟨d, rfl⟩ | ⟨s, o, o', rfl⟩ | ⟨p, q, rfl⟩
      · simp only [Sys.act] at hy ⊢
        split at hy
        · cases hy
        rename_i hj
        rw [if_neg (by rwa [h4])]
        obtain ⟨g1, g2⟩ := onDealer_links (x := ({ x with joined := d.id :: x.joined } : Sys).onBroker w (.add d)) (.add d)
          (by exact h2) (by exact h6) hy
        refine ⟨_, g2, rfl, ?_, fun s hs => .tail _ (h4 ▸ hs)⟩
        rw [g1]; simp only [Sys.onBroker, h1, h4, h5]
      · simp only [Sys.act] at hy ⊢
        obtain ⟨g1, g2⟩ := onDealer_links (x := x.onBroker w (.remove s o)) (.remove s o') (by exact h2) (by exact h6) hy
        refine ⟨_, g2, rfl, ?_, fun s hs => h4 ▸ hs⟩
        rw [g1]; simp only [Sys.onBroker, h1, h4, h5]
      · simp only [Sys.act] at hy ⊢
        obtain ⟨g1, g2⟩ := onDealer_links (x := x.onBroker w (.disclose p)) (.disclose q) (by exact h2) (by exact h6) hy
        refine ⟨_, g2, rfl, ?_, fun s hs => h4 ▸ hs⟩
        rw [g1]; simp only [Sys.onBroker, h1, h4, h5]
    obtain ⟨z, e1, e2, e3, e4⟩ := this
    refine ⟨z, got, [.act a], ?_, ?_, hgot⟩
    · rcases ha with ⟨d, rfl⟩ | ⟨s, o, o', rfl⟩ | ⟨p, q, rfl⟩ <;> simp [Log.moves, Log.move, Log.act, e1]
    rw [e2, e3]
    exact ⟨rfl, rfl, h3, rfl, rfl, rfl, h7, h8, h9, h10, hidle, h11, fun s hF hne => e4 s (hhere s hF hne)⟩
  | send s m b hF hb hf hy =>
    rename_i y
    simp only [Sys.act] at hy
    split at hy
    · rename_i cl r e
      split at hy
      · rename_i hj
        cases hy
        refine ⟨{ x with client := upd x.client s cl, up := upd x.up s (x.up s ++ [received (norm s) m]), sent := upd x.sent s (received (norm s) m :: x.sent s) },
          got, [.act (.send s b (received (norm s) m))], ?_, ⟨h1, h2, ?_, h4, h5, h6, rfl, rfl, ?_, ?_, ?_, h11, ?_⟩, hgot⟩
        · simp only [Log.moves, Log.move, hF, Log.act, Sys.act, send_received (hc s hF).flags, h3, e, h4, if_pos hj, Option.map_some, Option.bind_some,
            Bool.false_eq_true, if_false]
        · simp only [Sys.emptied, h3]
        · intro s'
          simp only [Sys.emptied, upd]
          split
          · rename_i e; subst e; simp [h9, reading_own hF]
          · exact h9 s'
        · intro s' hF'
          obtain ⟨us, g1, g2, g3⟩ := h10 s' hF'
          simp only [upd]
          split
          · rename_i e; subst e
            refine ⟨us ++ [m], by simp [g1], ?_, ?_⟩
            · intro m' hm'
              rcases List.mem_append.1 hm' with hm' | hm'
              · exact ⟨(g2 m' hm').1, by simp [Sys.emptied, upd, (g2 m' hm').2]⟩
              · rcases List.mem_singleton.1 hm' with rfl; exact ⟨hf, by simp [Sys.emptied, upd]⟩
            · have := g3.append (.cons hb .nil)
              rwa [List.append_nil, List.append_assoc] at this
          · rename_i e; exact ⟨us, g1, by simpa [Sys.emptied, upd, e] using g2, g3⟩
        · intro s' hF'
          have : s' ≠ s := by rintro rfl; rw [hF] at hF'; cases hF'
          simp only [upd, if_neg this]; exact hidle s' hF'
        · intro s' hF' hne
          have : s' ≠ s := by rintro rfl; rw [hF] at hF'; cases hF'
          simp only [upd, if_neg this] at hne
          exact hhere s' hF' hne
      · cases hy
    · cases hy
  | write s bytes hF hj =>
    refine ⟨x, got, [], rfl, ⟨h1, h2, h3, h4, h5, h6, h7, h8, h9, ?_, hidle, h11, ?_⟩, hgot⟩
    · intro s' hF'
      have : s' ≠ s := by rintro rfl; rw [hF] at hF'; cases hF'
      simp only [upd, if_neg this]; exact h10 s' hF'
    · intro s' hF' hne
      by_cases e : s' = s
      · subst e; exact hj
      · simp only [upd, if_neg e] at hne; exact hhere s' hF' hne
  | upArrive s a b hab =>
    refine ⟨x, got, [], rfl, ⟨h1, h2, h3, h4, h5, h6, h7, h8, h9, ?_, hidle, h11, ?_⟩, hgot⟩
    · intro s' hF'
      obtain ⟨us, g1, g2, g3⟩ := h10 s' hF'
      refine ⟨us, g1, g2, ?_⟩
      simp only [upd]
      split
      · rename_i e; subst e; rwa [List.append_assoc, ← hab]
      · exact g3
    · intro s' hF' hne
      refine hhere s' hF' fun he => hne ?_
      simp only [upd]
      split
      · rename_i e; subst e; rwa [List.append_assoc, ← hab]
      · exact he
  | downArrive s a b hab =>
    refine ⟨x, got, [], rfl, ⟨h1, h2, h3, h4, h5, h6, h7, h8, h9, h10, hidle, ?_, hhere⟩, hgot⟩
    intro s' hF'
    refine ⟨(h11 s' hF').1, ?_⟩
    simp only [upd]
    split
    · rename_i e; subst e; rw [List.append_assoc, ← hab]; exact (h11 s' hF').2
    · exact (h11 s' hF').2
  | drop s p rest hr hdes =>
    cases hF : F s with
    | false =>
      obtain ⟨us, g1, g2, g3⟩ := h10 s hF
      obtain ⟨m0, us', rfl, k1, k2, k3⟩ := Sim.read (hc s hF) g3 (fun m hm => (g2 m hm).1) hr
      rw [hdes] at k2
      cases k2
    | true =>
      refine ⟨x, got, [], rfl, ⟨h1, h2, h3, h4, h5, h6, h7, h8, h9, ?_, hidle, h11, ?_⟩, hgot⟩
      · intro s' hF'
        have : s' ≠ s := by rintro rfl; rw [hF] at hF'; cases hF'
        simp only [upd, if_neg this]; exact h10 s' hF'
      · intro s' hF' hne
        by_cases e : s' = s
        · subst e
          exact hhere s' hF' fun he => readFrame_ne hr (List.append_eq_nil_iff.1 he).1
        · simp only [upd, if_neg e] at hne; exact hhere s' hF' hne
  | take s a b hF hab =>
    refine ⟨x, got, [], rfl, ⟨h1, h2, h3, h4, h5, h6, h7, h8, h9, h10, hidle, ?_, hhere⟩, hgot⟩
    intro s' hF'
    have : s' ≠ s := by rintro rfl; rw [hF] at hF'; cases hF'
    simp only [upd, if_neg this]; exact h11 s' hF'
  | route s wo so rnd p rest m out hr hdes hy hfit hout =>
    rename_i y
    have hup : upd n.core.up s [m] s = [m] := by simp [upd]
    simp only [Sys.act, hup] at hy
    have hyj := handle_joined hy
    -- the state before the router takes `m`: a foreign client's message is put on its link first
    have pre : ∃ x0 us', x0 = { x with up := x0.up, sent := x0.sent } ∧
        (∃ vs, Log.moves w F ⟨x, got⟩ vs = some ⟨x0, got⟩) ∧ x0.up s = m :: us' ∧
        (∀ s', x0.sent s' = ((if F s then upd n.core.sent s (m :: n.core.sent s) else n.core.sent) s').map (reading F norm s')) ∧
        (∀ s', s' ≠ s → x0.up s' = x.up s') ∧ (F s = true → us' = []) ∧
        (F s = false → ∃ us, us' = us.map (received (norm s)) ∧ (∀ m ∈ us, Fit s m ∧ m ∈ n.core.sent s) ∧ Written (c s) us (rest ++ n.upWay s)) := by
      cases hF : F s with
      | false =>
        obtain ⟨us, g1, g2, g3⟩ := h10 s hF
        obtain ⟨m0, us', rfl, k1, k2, k3⟩ := Sim.read (hc s hF) g3 (fun m hm => (g2 m hm).1) hr
        rw [hdes] at k2
        injection k2 with k2
        refine ⟨x, us'.map (received (norm s)), rfl, ⟨[], rfl⟩, by rw [g1, k2]; rfl, fun s' => h9 s', fun _ _ => rfl, fun h => (nomatch h),
          fun _ => ⟨us', rfl, fun m' hm' => g2 m' (.tail _ hm'), k3⟩⟩
      | true =>
        have hj : s ∈ x.joined := h4 ▸ hhere s hF fun he => readFrame_ne hr (List.append_eq_nil_iff.1 he).1
        refine ⟨{ x with up := upd x.up s (x.up s ++ [m]), sent := upd x.sent s (m :: x.sent s) }, [], rfl, ⟨[.inject s m], ?_⟩, ?_, ?_, ?_, fun _ => rfl,
          fun h => (nomatch h)⟩
        · simp only [Log.moves, Log.move, hF, hj, and_self, if_true, Option.bind_some]
        · simp only [upd, if_true, hidle s hF, List.nil_append]
        · intro s'
          simp only [if_true, upd]
          split
          · rename_i e; subst e; simp [h9, reading_foreign hF]
          · exact h9 s'
        · intro s' hs'; simp only [upd, if_neg hs']
    obtain ⟨x0, us', e0, ⟨vs, hvs⟩, hxup, hsent0, hup0, hfe, hown⟩ := pre
    have p1 : x0.broker = x.broker := by rw [e0]
    have p2 : x0.dealer = x.dealer := by rw [e0]
    have p3 : x0.client = x.client := by rw [e0]
    have p4 : x0.joined = x.joined := by rw [e0]
    have p5 : x0.bh = x.bh := by rw [e0]
    have p6 : x0.dh = x.dh := by rw [e0]
    have p7 : x0.down = x.down := by rw [e0]
    obtain ⟨o, e1, e2⟩ := handle_links (x := { x0 with up := upd x0.up s us' })
      (y := { n.core with up := upd (upd n.core.up s [m]) s [], sent := if F s then upd n.core.sent s (m :: n.core.sent s) else n.core.sent }) s _ wo so rnd
      (p1.trans h1) (p2.trans h2) (p5.trans h5) (p6.trans h6) hy
    have e3 : x0.act w (.route s wo so rnd) = Sys.handle w { x0 with up := upd x0.up s us' } s m wo so rnd := by
      simp only [Sys.act, hxup]
    rw [e2] at e3
    have e4 : Log.act w ⟨x0, got⟩ (.route s wo so rnd) = some ⟨_, got⟩ := congrArg (Option.map fun y => (⟨y, got⟩ : Log)) e3
    have hyd : ∀ s', y.down s' = o s' := by
      intro s'
      have := congrFun (congrArg Sys.down e1) s'
      simpa [h8] using this
    have hmoves : ∀ (l : Log) (vs us : List Move), Log.moves w F l (vs ++ us) = (Log.moves w F l vs).bind fun l' => Log.moves w F l' us := by
      intro l vs us
      induction vs generalizing l with
      | nil => rfl
      | cons v vs ih =>
        simp only [List.cons_append, Log.moves]
        cases l.move w F v with
        | none => rfl
        | some z => exact ih z
    refine ⟨_, got, vs ++ [.act (.route s wo so rnd)], by rw [hmoves, hvs]; simp only [Option.bind_some, Log.moves, Log.move, e4]; rfl, ?_, hgot⟩
    refine ⟨rfl, rfl, ?_, ?_, rfl, rfl, rfl, rfl, ?_, ?_, ?_, ?_, ?_⟩
    · exact (p3.trans h3).trans hyj.2.1.symm
    · exact (p4.trans h4).trans hyj.1.symm
    · intro s'
      show x0.sent s' = (y.sent s').map _
      rw [hyj.2.2.1]; exact hsent0 s'
    · intro s' hF'
      show ∃ us, upd x0.up s us' s' = _ ∧ (∀ m' ∈ us, Fit s' m' ∧ m' ∈ y.sent s') ∧ Written (c s') us (upd n.upBuf s rest s' ++ n.upWay s')
      rw [hyj.2.2.1]
      simp only [upd]
      split
      · rename_i e; subst e
        obtain ⟨us, g1, g2, g3⟩ := hown hF'
        refine ⟨us, g1, ?_, g3⟩
        simpa only [hF', Bool.false_eq_true, if_false] using g2
      · rename_i e
        obtain ⟨us, g1, g2, g3⟩ := h10 s' hF'
        refine ⟨us, (hup0 s' e).trans g1, fun m' hm' => ⟨(g2 m' hm').1, ?_⟩, g3⟩
        split
        · show m' ∈ upd n.core.sent s _ s'
          rw [upd, if_neg e]; exact (g2 m' hm').2
        · exact (g2 m' hm').2
    · intro s' hF'
      show upd x0.up s us' s' = []
      simp only [upd]
      split
      · rename_i e; subst e; exact hfe hF'
      · rename_i e; rw [hup0 s' e]; exact hidle s' hF'
    · intro s' hF'
      show (∀ m' ∈ x0.down s' ++ o s', Fit s' m') ∧ Written (c s') (x0.down s' ++ o s') (n.downBuf s' ++ (n.downWay s' ++ out s'))
      rw [p7]
      constructor
      · intro m' hm'
        rcases List.mem_append.1 hm' with hm' | hm'
        · exact (h11 s' hF').1 m' hm'
        · exact hfit s' m' (by rwa [hyd])
      · have := (h11 s' hF').2.append (hout s')
        rw [hyd, List.append_assoc] at this
        exact this
    · intro s' hF' hne
      show s' ∈ y.joined
      rw [hyj.1]
      refine hhere s' hF' fun he => ?_
      by_cases e : s' = s
      · subst e
        exact readFrame_ne hr (List.append_eq_nil_iff.1 he).1
      · simp only [upd, if_neg e] at hne; exact hne he
  | deliver s p rest m hF hr hdes hy =>
    rename_i y
    obtain ⟨d1, d2⟩ := h11 s hF
    obtain ⟨m0, ds', e0, k1, k2, k3⟩ := Sim.read (hc s hF) d2 d1 hr
    rw [hdes] at k2
    injection k2 with k2
    subst k2
    have hdn : upd n.core.down s [received (norm s) m0] s = [received (norm s) m0] := by simp [upd]
    simp only [Sys.act, hdn] at hy
    cases hy
    have e3 : x.act w (.deliver s) = some { x with client := upd x.client s ((recv m0).run (x.client s)).1, down := upd x.down s ds' } := by
      simp only [Sys.act, e0]
    have e4 : Log.act w ⟨x, got⟩ (.deliver s) =
        some ⟨{ x with client := upd x.client s ((recv m0).run (x.client s)).1, down := upd x.down s ds' }, upd got s (got s ++ [m0])⟩ := by
      have h1 : got s ++ (x.down s).take 1 = got s ++ [m0] := by rw [e0]; rfl
      have := congrArg (Option.map fun y => (⟨y, upd got s (got s ++ (x.down s).take 1)⟩ : Log)) e3
      rw [h1] at this
      simp only [Log.act]
      rw [h1]
      exact this
    refine ⟨{ x with client := upd x.client s ((recv m0).run (x.client s)).1, down := upd x.down s ds' }, upd got s (got s ++ [m0]), [.act (.deliver s)],
      by simp only [Log.moves, Log.move, e4]; rfl, ⟨h1, h2, ?_, h4, h5, h6, rfl, rfl, h9, h10, hidle, ?_, hhere⟩, ?_⟩
    · simp only [Sys.emptied, h3, recv_received_state (hc s hF).flags]
    · intro s' hF'
      simp only [upd]
      split
      · rename_i e; subst e
        rw [e0] at d1
        exact ⟨fun m' hm' => d1 m' (.tail _ hm'), k3⟩
      · exact h11 s' hF'
    · intro s'
      simp only [upd]
      split
      · rename_i e; subst e; simp [hgot]
      · exact hgot s'

theorem open_reach_log (hc : ∀ s, F s = false → Carried (c s) (norm s) (Fit s)) {n : Net} (h : OpenReach w c Fit F n) :
    ∃ l : Log, Log.Open w F l ∧ OSim c norm Fit F n l.sys ∧ ∀ s, n.got s = (l.got s).map (received (norm s)) := by
  induction h with
  | new =>
    exact ⟨Log.new, .new, ⟨rfl, rfl, rfl, rfl, rfl, rfl, rfl, rfl, fun _ => rfl, fun _ _ => ⟨[], rfl, by simp, .nil⟩, fun _ _ => rfl,
      fun _ _ => ⟨by simp [Log.new, Sys.new], .nil⟩, fun _ _ h => absurd rfl h⟩, fun _ => rfl⟩
  | step _ hs ih =>
    obtain ⟨l, hl, hsim, hgot⟩ := ih
    obtain ⟨x', got', vs, e1, e2, e3⟩ := osim_act (got := l.got) hc hsim hgot hs
    exact ⟨⟨x', got'⟩, open_moves hl vs e1, e2, e3⟩

end Wamp.Net
