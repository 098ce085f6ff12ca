import Verif.Lemmas.SystemDealer
/-!
# Clients and their registrations
-/
namespace Wamp.System
open Session

variable {w : Str → Str → Bool}
variable {s : Nat} {st T : Session.State} {up down sent : List Msg} {b b' : Dealer.State} {dh : List Dealer.Event}

theorem accepts_invocation {i g : Nat} {d : GoMap} {a : GoSlice} {k : GoMap} {bin : Bin} (h : (T .registrations g).isSome = true) :
    Accepts T (.invocation i g d a k bin) := by
  obtain ⟨v, hv⟩ := Option.isSome_iff_exists.1 h
  simp only [Accepts, recv, Prog.run, hv]

theorem accepts_unregistered {r g : Nat} (h1 : T .unregister r = some g) (h : (T .registrations g).isSome = true) :
    Accepts T (.unregistered r) := by
  obtain ⟨v, hv⟩ := Option.isSome_iff_exists.1 h
  simp only [Accepts, recv, Prog.run, hv, h1]

/-- What the dealer's answer to client `s'` does to the confirmed registrations of client `s`. -/
theorem registrations_after {s' : Nat} {m : Msg} {out : List (Nat × Msg)} {res : Res Dealer.Out} {up0 : List Msg}
    (h : AI s b st up0 down sent) (hu : (s = s' ∧ up0 = m :: up) ∨ (s ≠ s' ∧ up0 = up))
    (hd : DStep b s' m b' out) (hout : out = dealerOut res) :
    (∃ r g, s = s' ∧ m = .unregister r g ∧ messagesFor s out = [.unregistered r] ∧ after st down .unregister r = some g ∧
      (∃ m' a, b.bySession s = some m' ∧ m'.get g = some a) ∧
      ∀ g', after st (down ++ messagesFor s out) .registrations g' = if g' = g then none else after st down .registrations g') ∨
    ((∀ m' ∈ messagesFor s out, (∀ r, m' ≠ .unregistered r) ∧ ∀ i g d a k bin, m' = .invocation i g d a k bin →
        messagesFor s out = [m'] ∧ res = .ok (.msg (.invocation i g d a k bin) s)) ∧
      (∀ g, (after st down .registrations g).isSome = true → (after st (down ++ messagesFor s out) .registrations g).isSome = true) ∧
      ∀ r o u q g s'', s = s' → m = .register r o u → res = .ok (.msg (.registered q g) s'') →
        (after st (down ++ messagesFor s out) .registrations g).isSome = true) := by
  have hres : ∀ {c : Nat} {m' : Msg}, [(c, m')] = dealerOut res → res = .ok (.msg m' c) := by
    intro c m' he
    cases res with
    | err => cases he
    | panic => cases he
    | ok v =>
      cases v with
      | msg m'' c' => simp only [dealerOut, List.cons.injEq, Prod.mk.injEq, and_true] at he; rw [he.1, he.2]
      | _ => cases he
  have h0 : AI s b st up down sent := by
    rcases hu with ⟨-, e⟩ | ⟨-, e⟩ <;> rw [e] at h
    · exact h.take
    · exact h
  have hnil : ∀ {g}, (after st down .registrations g).isSome = true → (after st (down ++ []) .registrations g).isSome = true := by
    intro g hg; rwa [List.append_nil]
  have hinv : ∀ {r o u a k bin}, m = .call r o u a k bin →
      (out = [] ∨ ∃ j g d a' k' bin' c, out = [(c, .invocation j g d a' k' bin')]) →
      (∀ m' ∈ messagesFor s out, (∀ r, m' ≠ .unregistered r) ∧ ∀ i g d a k bin, m' = .invocation i g d a k bin →
        messagesFor s out = [m'] ∧ res = .ok (.msg (.invocation i g d a k bin) s)) ∧
      (∀ g, (after st down .registrations g).isSome = true → (after st (down ++ messagesFor s out) .registrations g).isSome = true) := by
    intro r o u a k bin hm ho
    rcases ho with rfl | ⟨j, g, d, a', k', bin', c, rfl⟩
    · exact ⟨fun m' hm' => (nomatch hm'), fun g hg => hnil hg⟩
    · rw [messagesFor_one]
      by_cases hc : c = s
      · rw [if_pos hc]
        refine ⟨fun m' hm' => ?_, fun g' hg' => ?_⟩
        · simp only [List.mem_singleton] at hm'
          subst hm'
          refine ⟨by simp, fun i g d a k bin he => ⟨rfl, ?_⟩⟩
          cases he
          rw [hres hout, hc]
        · rw [after_snoc, next_invocation (t := .registrations) _ _ _ _ _ _ trivial]; exact hg'
      · rw [if_neg hc]
        exact ⟨fun m' hm' => (nomatch hm'), fun g hg => hnil hg⟩
  have hcall : ∀ {c : Nat} {m' : Msg}, out = [(c, m')] → (∀ r, m' ≠ .unregistered r) → (∀ i g d a k bin, m' ≠ .invocation i g d a k bin) →
      (∀ g, next (after st down) m' .registrations g = after st down .registrations g) →
      (∀ m' ∈ messagesFor s out, (∀ r, m' ≠ .unregistered r) ∧ ∀ i g d a k bin, m' = .invocation i g d a k bin →
        messagesFor s out = [m'] ∧ res = .ok (.msg (.invocation i g d a k bin) s)) ∧
      (∀ g, (after st down .registrations g).isSome = true → (after st (down ++ messagesFor s out) .registrations g).isSome = true) := by
    intro c m' ho h1 h2 h3
    rw [ho, messagesFor_one]
    by_cases hc : c = s
    · rw [if_pos hc]
      refine ⟨fun m'' hm'' => ?_, fun g' hg' => ?_⟩
      · simp only [List.mem_singleton] at hm''
        subst hm''
        exact ⟨h1, fun i g d a k bin he => absurd he (h2 i g d a k bin)⟩
      · rw [after_snoc, h3]; exact hg'
    · rw [if_neg hc]
      exact ⟨fun m' hm' => (nomatch hm'), fun g hg => hnil hg⟩
  have hno : ∀ {out'}, out' = dealerOut res → (∀ q g s'', out' ≠ [(s'', .registered q g)]) →
      ∀ q g s'', res ≠ .ok (.msg (.registered q g) s'') := by
    intro out' ho hne q g s'' hr
    rw [hr] at ho
    exact hne q g s'' ho
  cases hd with
  | quiet _ _ h1 h2 =>
    exact .inr ⟨fun m' hm' => (nomatch hm'), fun g hg => hnil hg, fun r o u q g s'' _ _ hr => absurd hr (hno hout (by simp) _ _ _)⟩
  | refused r o u a k bin d e a' k' =>
    obtain ⟨k1, k2⟩ := hcall rfl (by simp) (by simp) (fun g => by rw [next_error (tab := .call) rfl]; simp)
    exact .inr ⟨k1, k2, fun r o u q g s'' _ _ hr => absurd hr (hno hout (by simp) _ _ _)⟩
  | called r o u a k bin i p _ _ h1 h2 h3 h4 h5 =>
    obtain ⟨k1, k2⟩ := hinv rfl h5
    exact .inr ⟨k1, k2, fun r o u q g s'' _ he => by cases he⟩
  | continued r o u a k bin i _ _ h1 h2 h3 h4 =>
    obtain ⟨k1, k2⟩ := hinv rfl h4
    exact .inr ⟨k1, k2, fun r o u q g s'' _ he => by cases he⟩
  | dropped _ i _ h1 h2 =>
    exact .inr ⟨fun m' hm' => (nomatch hm'), fun g hg => hnil hg, fun r o u q g s'' _ _ hr => absurd hr (hno hout (by simp) _ _ _)⟩
  | progress _ i p d a k bin h1 h2 =>
    obtain ⟨k1, k2⟩ := hcall rfl (by simp) (by simp) (fun g => by rw [next_result]; simp)
    exact .inr ⟨k1, k2, fun r o u q g s'' _ _ hr => absurd hr (hno hout (by simp) _ _ _)⟩
  | result _ i p _ d a k bin h1 h2 h3 h4 =>
    obtain ⟨k1, k2⟩ := hcall rfl (by simp) (by simp) (fun g => by rw [next_result]; simp)
    exact .inr ⟨k1, k2, fun r o u q g s'' _ _ hr => absurd hr (hno hout (by simp) _ _ _)⟩
  | error _ i p _ d u a k h1 h3 h4 =>
    obtain ⟨k1, k2⟩ := hcall rfl (by simp) (by simp) (fun g => by rw [next_error (tab := .call) rfl]; simp)
    exact .inr ⟨k1, k2, fun r o u q g s'' _ _ hr => absurd hr (hno hout (by simp) _ _ _)⟩
  | taken r o u d e a k =>
    obtain ⟨k1, k2⟩ := hcall rfl (by simp) (by simp) (fun g => by rw [next_error (tab := .register) rfl]; simp)
    exact .inr ⟨k1, k2, fun r o u q g s'' _ _ hr => absurd hr (hno hout (by simp) _ _ _)⟩
  | registered r o u g _ h1 h2 =>
    refine .inr ?_
    rcases hu with ⟨rfl, rfl⟩ | ⟨hne, rfl⟩
    · rw [messagesFor_one, if_pos rfl]
      have hc := h.d.reg r o u (.head _)
      refine ⟨fun m' hm' => ?_, fun g' hg' => ?_, fun r' o' u' q g' s'' _ _ hr => ?_⟩
      · simp only [List.mem_singleton] at hm'
        subst hm'
        exact ⟨by simp, by simp⟩
      · rw [after_snoc, next_registered hc]
        by_cases hg : g' = g <;> simp [hg, hg']
      · rw [hres hout] at hr
        cases hr
        rw [after_snoc, next_registered hc]
        simp
    · rw [messagesFor_one, if_neg hne.symm]
      exact ⟨fun m' hm' => (nomatch hm'), fun g hg => hnil hg, fun r o u q g s'' he => absurd he hne⟩
  | unregistered r g _ h1 h2 h3 =>
    rcases hu with ⟨rfl, rfl⟩ | ⟨hne, rfl⟩
    · have hc := h.d.unr r g (.head _)
      rw [messagesFor_one, if_pos rfl]
      refine .inl ⟨r, g, rfl, rfl, rfl, hc, h3, fun g' => ?_⟩
      rw [after_snoc, next_unregistered hc]
      simp
    · refine .inr ?_
      rw [messagesFor_one, if_neg hne.symm]
      exact ⟨fun m' hm' => (nomatch hm'), fun g hg => hnil hg, fun r o u q g s'' he => absurd he hne⟩

/-- INVOCATIONs come of CALLs only. -/
theorem DStep.of_invocation {s' : Nat} {m : Msg} {out : List (Nat × Msg)} (hd : DStep b s' m b' out)
    (ho : out = [(s, .invocation i g d a k bin)]) : ∃ r o u a' k' bin', m = .call r o u a' k' bin' := by
  cases hd <;> first | cases ho; done | exact ⟨_, _, _, _, _, _, rfl⟩

/-! ### Without repeated or shared UNREGISTER -/

/-- The INVOCATIONs for registrations that the client never unregistered, and the UNREGISTEREDs for registrations that it
unregistered only once. -/
def simpleUse (sent : List Msg) : Msg → Prop
  | .invocation _ g _ _ _ _ => ∀ r, .unregister r g ∉ sent
  | .unregistered r => ∀ g r', .unregister r g ∈ sent → .unregister r' g ∈ sent → r' = r
  | _ => False

theorem simpleUse_from {m : Msg} (h : simpleUse sent m) : fromDealer m := by
  cases m <;> simp only [simpleUse] at h <;> trivial

/-- Client `s` was at some time answered with this registration ID. -/
def wasGiven (dh : List Dealer.Event) (s g : Nat) : Prop := ∃ p, ∃ e ∈ dh, Dealer.registeredAs s p g e

/-- The tables `T` of client `s` contain the registrations it did not unregister. -/
structure RA (s : Nat) (dh : List Dealer.Event) (T : Session.State) (up sent : List Msg) : Prop where
  keep : ∀ g, wasGiven dh s g → (∀ r, .unregister r g ∉ sent) → (T .registrations g).isSome = true
  una : ∀ r g, .unregister r g ∈ up → wasGiven dh s g → (∀ r', .unregister r' g ∈ sent → r' = r) → (T .registrations g).isSome = true

theorem wasGiven_step {e : Dealer.Event} {g : Nat} (h : wasGiven (e :: dh) s g) : wasGiven dh s g ∨ ∃ p, Dealer.registeredAs s p g e := by
  obtain ⟨p, e', he', hr⟩ := h
  rcases List.mem_cons.1 he' with rfl | he'
  · exact .inr ⟨p, hr⟩
  · exact .inl ⟨p, e', he', hr⟩

theorem RA.congr {T' : Session.State} (h : RA s dh T up sent) (h1 : ∀ g, T' .registrations g = T .registrations g) : RA s dh T' up sent :=
  ⟨fun g hg hn => by rw [h1]; exact h.keep g hg hn, fun r g hm hg hn => by rw [h1]; exact h.una r g hm hg hn⟩

theorem RA.take {m : Msg} (h : RA s dh T (m :: up) sent) : RA s dh T up sent := ⟨h.keep, fun r g hm => h.una r g (.tail _ hm)⟩

theorem RA.quiet {e : Dealer.Event} (h : RA s dh T up sent) (he : ∀ g p, ¬Dealer.registeredAs s p g e) : RA s (e :: dh) T up sent := by
  have hg : ∀ g, wasGiven (e :: dh) s g → wasGiven dh s g := by
    intro g hg
    rcases wasGiven_step hg with hg | ⟨p, hp⟩
    · exact hg
    · exact absurd hp (he g p)
  exact ⟨fun g hw => h.keep g (hg g hw), fun r g hm hw => h.una r g hm (hg g hw)⟩

theorem RA.dealer {s' : Nat} {m : Msg} {up0 : List Msg} {out : List (Nat × Msg)} {res : Res Dealer.Out} {wo : List Str} {rnd : Nat}
    (h : AI s b st up0 down sent) (hr : RA s dh (after st down) up0 sent) (ha : AllAcc (simpleUse sent) st down)
    (hu : (s = s' ∧ up0 = m :: up) ∨ (s ≠ s' ∧ up0 = up)) (hd : DStep b s' m b' out) (hout : out = dealerOut res)
    (hinv : ∀ i g d a k bin, res = .ok (.msg (.invocation i g d a k bin) s) → wasGiven dh s g)
    (hun : ∀ m' a g, b.bySession s = some m' → m'.get g = some a → wasGiven dh s g) :
    RA s (⟨.receive s' m wo rnd, res⟩ :: dh) (after st (down ++ messagesFor s out)) up sent ∧
      AllAcc (simpleUse sent) st (down ++ messagesFor s out) := by
  have hr0 : RA s dh (after st down) up sent := by
    rcases hu with ⟨-, e⟩ | ⟨-, e⟩ <;> rw [e] at hr
    · exact hr.take
    · exact hr
  rcases registrations_after h hu hd hout with ⟨r, g, rfl, rfl, hm, hask, ⟨m', a, hm', ha'⟩, hT⟩ | ⟨hmsgs, hT, hreg⟩
  · rcases hu with ⟨-, rfl⟩ | ⟨hne, -⟩
    rotate_left
    · exact absurd rfl hne
    have hgiven := hun m' a g hm' ha'
    have hsent : Msg.unregister r g ∈ sent := h.q.snt r g (.head _)
    refine ⟨RA.quiet ⟨?_, ?_⟩ (by rintro g p ⟨q, o, order, rnd', q', s', he⟩; simp at he), ?_⟩
    · intro g' hg hn
      rw [hT, if_neg (by rintro rfl; exact hn r hsent)]
      exact hr0.keep g' hg hn
    · intro r' g' hmem hg hn
      rw [hT, if_neg]
      · exact hr0.una r' g' hmem hg hn
      · rintro rfl
        have := hn r hsent
        subst this
        exact h.q.head_only rfl hmem rfl
    · rw [hm]
      refine allAcc_snoc ha fun hs => accepts_unregistered hask ?_
      exact hr.una r g (.head _) hgiven fun r' hr' => hs g r' hsent hr'
  · refine ⟨⟨?_, ?_⟩, ?_⟩
    · intro g hg hn
      rcases wasGiven_step hg with hg | ⟨p, q, o, order, rnd', q', s'', he⟩
      · exact hT g (hr0.keep g hg hn)
      · injection he with e1 e2
        injection e1 with e3 e4
        exact hreg q o p q' g s'' e3.symm e4 e2
    · intro r g hmem hg hn
      rcases wasGiven_step hg with hg | ⟨p, q, o, order, rnd', q', s'', he⟩
      · exact hT g (hr0.una r g hmem hg hn)
      · injection he with e1 e2
        injection e1 with e3 e4
        exact hreg q o p q' g s'' e3.symm e4 e2
    · by_cases hex : ∃ m' ∈ messagesFor s out, ∃ i g d a k bin, m' = .invocation i g d a k bin
      · obtain ⟨m', hm', i, g, d, a, k, bin, he⟩ := hex
        obtain ⟨e1, e2⟩ := (hmsgs m' hm').2 i g d a k bin he
        rw [e1, he]
        exact allAcc_snoc ha fun hs => accepts_invocation (hr0.keep g (hinv i g d a k bin e2) hs)
      · refine (allAcc_append ..).2 ⟨ha, ?_⟩
        have : ∀ (q : List Msg) (T : Session.State), (∀ m' ∈ q, ¬simpleUse sent m') → AllAcc (simpleUse sent) T q := by
          intro q
          induction q with
          | nil => intro T _; trivial
          | cons m' q ih => exact fun T hq => ⟨fun hm => absurd hm (hq m' (.head _)), ih _ fun m'' hm'' => hq m'' (.tail _ hm'')⟩
        refine this _ _ fun m' hm' hs => ?_
        have h1 := (hmsgs m' hm').1
        cases m' <;> simp only [simpleUse] at hs
        · exact h1 _ rfl
        · exact hex ⟨_, hm', _, _, _, _, _, _, rfl⟩

theorem reach_ra {x : Sys} (h : Reach w x) (s : Nat) (hlen : x.dh.length ≤ 2 ^ 53) (hf : Fresh x s) :
    RA s x.dh (after (x.client s) (x.down s)) (x.up s) (x.sent s) ∧ AllAcc (simpleUse (x.sent s)) (x.client s) (x.down s) := by
  induction h with
  | new =>
    refine ⟨⟨?_, ?_⟩, trivial⟩
    · rintro g ⟨p, e, he, -⟩; cases he
    · intro r g hm; cases hm
  | act a hx ha ih =>
    have hc := act_change ha
    have hfx := hf.back hc
    have hA := reach_ai hx s hfx
    obtain ⟨ih, ihA⟩ := ih (Nat.le_trans (change_grows hc).2.1 hlen) hfx
    obtain ⟨-, hdh⟩ := reach_hist hx
    cases hc with
    | admin bop dop j h1 h2 h3 =>
      refine ⟨ih.quiet ?_, ihA⟩
      rintro g p ⟨q, o, order, rnd', q', s', he⟩
      injection he with e1
      subst e1
      exact h2
    | send s' data m c v h1 =>
      by_cases hs : s = s'
      · subst hs
        simp only [upd_same]
        rename_i x' y'
        have hf' : (reqs (m :: x'.sent s)).Nodup := by simpa only [Fresh, upd_same] using hf
        obtain ⟨k1, k2, -⟩ := send_tabs hA.q h1 hf'
        have hT : ∀ g, after c (x'.down s) .registrations g = after (x'.client s) (x'.down s) .registrations g := fun g =>
          k2 .registrations g trivial (fun n hn => by cases hn)
        have hmono : ∀ m', simpleUse (m :: x'.sent s) m' → simpleUse (x'.sent s) m' := by
          intro m' hm'
          cases m' <;> simp only [simpleUse] at hm' ⊢
          · exact fun g r' h1 h2 => hm' g r' (.tail _ h1) (.tail _ h2)
          · exact fun r hr => hm' r (.tail _ hr)
        refine ⟨⟨?_, ?_⟩, k1 _ (fun _ => simpleUse_from) (ihA.mono hmono)⟩
        · intro g hg hn
          rw [hT]
          exact ih.keep g hg fun r hr => hn r (.tail _ hr)
        · intro r g hm hg hn
          rw [hT]
          rcases mem_snoc hm with hm | hm
          · exact ih.una r g hm hg fun r' hr' => hn r' (.tail _ hr')
          · subst hm
            refine ih.keep g hg fun r' hr' => ?_
            have := hn r' (.tail _ hr')
            subst this
            rw [reqs_cons] at hf'
            exact (List.nodup_cons.1 hf').1 (mem_reqs hr' rfl)
      · simpa only [upd_other _ _ hs] using And.intro ih ihA
    | deliver s' m rest h1 =>
      by_cases hs : s = s'
      · subst hs
        simp only [upd_same]
        rw [h1] at ih ihA
        exact ⟨ih, ihA.2⟩
      · simpa only [upd_other _ _ hs] using And.intro ih ihA
    | broker s' m rest wo so op h1 h2 =>
      rename_i x' y'
      have h0 : RA s x'.dh (after (x'.client s) (x'.down s)) (upd x'.up s' rest s) (x'.sent s) := by
        by_cases hs : s = s'
        · subst hs
          rw [h1] at ih
          simpa only [upd_same] using ih.take
        · simpa only [upd_other _ _ hs] using ih
      have hq : ∀ m' ∈ messagesFor s (brokerOut (Broker.step w x'.broker op).2), fromBroker m' := by
        intro m' hm'
        simp only [messagesFor, List.mem_map, List.mem_filter] at hm'
        obtain ⟨p, ⟨hp, -⟩, rfl⟩ := hm'
        exact brokerOut_from h2 p hp
      obtain ⟨k1, k2⟩ := posts_broker (fun _ => simpleUse_from) hq ihA
      exact ⟨h0.congr fun g => k2 .registrations g trivial, k1⟩
    | dealer s' m rest wo rnd h1 h2 h3 =>
      rename_i x' y'
      have hlt : x'.dh.length < 2 ^ 53 := hlen
      have hW := Dealer.hist_winv hdh (Nat.le_of_lt hlt)
      refine RA.dealer hA ih ihA ?_ (dstep _ _ _ _ _ h2 h3) rfl ?_ ?_
      · by_cases hs : s = s'
        · subst hs; exact .inl ⟨rfl, by simp only [upd_same]; exact h1⟩
        · exact .inr ⟨hs, by simp only [upd_other _ _ hs]⟩
      · intro i g d a k bin hr
        obtain ⟨r, o, u, a', k', bin', rfl⟩ := (dstep _ _ _ _ _ h2 h3).of_invocation (by rw [hr]; rfl)
        obtain ⟨p, hp, -⟩ := Dealer.C54_registered_partial hdh hlt s' r o u a' k' bin' wo rnd i g s d a k bin hr
        exact ⟨p, hp⟩
      · intro m' a g hm' ha'
        exact ⟨_, hW.ses s m' g a hm' ha'⟩
    | ignore s' m rest h1 =>
      by_cases hs : s = s'
      · subst hs
        simp only [upd_same]
        rw [h1] at ih
        exact ⟨ih.take, ihA⟩
      · simpa only [upd_other _ _ hs] using And.intro ih ihA

/-! ### Well-behaved registrations -/

/-- INVOCATIONs and UNREGISTEREDs. -/
def ofReg : Msg → Prop
  | .invocation .. | .unregistered _ => True
  | _ => False

theorem ofReg_from {m : Msg} (h : ofReg m) : fromDealer m := by cases m <;> simp only [ofReg] at h <;> trivial

/-- The tables `T` of client `s` contain all registrations of which it is a member. -/
def RB (s : Nat) (dh : List Dealer.Event) (T : Session.State) : Prop :=
  ∀ p r, Dealer.regOf dh p = some r → s ∈ r.members → (T .registrations r.id).isSome = true

theorem leave_mem {r r' : Dealer.RegView} (h : Dealer.leave s' r = some r') (hs : s ∈ r'.members) : r.id = r'.id ∧ s ∈ r.members ∧ s ≠ s' := by
  simp only [Dealer.leave] at h
  split at h
  · cases h
  · cases h
    simpa using hs

/-- Members of a registration were so before, or have just been told. -/
theorem regOf_back {e : Dealer.Event} {r' : Dealer.RegView} (h : Dealer.regOf (e :: dh) p = some r') (hs : s ∈ r'.members) :
    (∃ r, Dealer.regOf dh p = some r ∧ r.id = r'.id ∧ s ∈ r.members ∧
      ∀ q order rnd o, e ≠ ⟨.receive s (.unregister q r.id) order rnd, .ok o⟩) ∨
    ∃ i, Dealer.registeredAs s p i e ∧ ((Dealer.regOf dh p = none ∧ i = r'.id) ∨ ∃ r, Dealer.regOf dh p = some r ∧ r.id = r'.id) := by
  unfold Dealer.regOf at h
  split at h
  · cases h
  · rename_i h1
    split at h
    · rename_i e1
      subst e1
      cases h1
      split at h
      · rename_i hn
        cases h
        simp only [List.mem_singleton] at hs
        subst hs
        exact .inr ⟨_, ⟨_, _, _, _, _, _, rfl⟩, .inl ⟨hn, rfl⟩⟩
      · rename_i r hr
        cases h
        rcases List.mem_append.1 hs with hs | hs
        · exact .inl ⟨r, hr, rfl, hs, by simp⟩
        · simp only [List.mem_singleton] at hs
          subst hs
          exact .inr ⟨_, ⟨_, _, _, _, _, _, rfl⟩, .inr ⟨r, hr, rfl⟩⟩
    · cases h1
      exact .inl ⟨r', h, rfl, hs, by simp⟩
  · rename_i h1
    cases h1
    obtain ⟨r, hr, h⟩ := Option.bind_eq_some_iff.1 h
    split at h
    · obtain ⟨e1, e2, e3⟩ := leave_mem h hs
      refine .inl ⟨r, hr, e1, e2, ?_⟩
      intro q order rnd o he
      injection he with he
      injection he with he
      exact e3 he.symm
    · rename_i hne
      cases h
      refine .inl ⟨r', hr, rfl, hs, ?_⟩
      intro q order rnd o he
      injection he with he
      injection he with he he'
      injection he' with _ he'
      exact hne he'.symm
  · rename_i h1
    cases h1
    obtain ⟨r, hr, h⟩ := Option.bind_eq_some_iff.1 h
    obtain ⟨e1, e2, e3⟩ := leave_mem h hs
    exact .inl ⟨r, hr, e1, e2, by simp⟩
  · rename_i h1 h2 h3
    cases h3
    refine .inl ⟨r', h, rfl, hs, ?_⟩
    intro q order rnd o he
    exact h1 _ _ _ _ _ _ he

theorem tame_back {x y : Sys} (hc : Change w x y) (h : Dealer.Tame p y.dh) : Dealer.Tame p x.dh := by
  cases hc with
  | admin => exact h.2
  | dealer => exact h.2
  | _ => exact h

theorem RB.congr {T' : Session.State} (h : RB s dh T) (h1 : ∀ g, T' .registrations g = T .registrations g) : RB s dh T' :=
  fun p r hr hs => by rw [h1]; exact h p r hr hs

theorem RB.dealer {s' : Nat} {m : Msg} {up0 : List Msg} {out : List (Nat × Msg)} {res : Res Dealer.Out} {wo : List Str} {rnd : Nat}
    (h : AI s b st up0 down sent) (hr : RB s dh (after st down)) (ha : AllAcc ofReg st down)
    (hu : (s = s' ∧ up0 = m :: up) ∨ (s ≠ s' ∧ up0 = up)) (hd : DStep b s' m b' out) (hout : out = dealerOut res)
    (hnp : out ≠ [] → ∃ o, res = .ok o)
    (hinv : ∀ i g d a k bin, res = .ok (.msg (.invocation i g d a k bin) s) → ∃ p r, Dealer.regOf dh p = some r ∧ r.id = g ∧ s ∈ r.members)
    (hun : ∀ m' a g, b.bySession s = some m' → m'.get g = some a → ∃ p r, Dealer.regOf dh p = some r ∧ r.id = g ∧ s ∈ r.members)
    (hid : ∀ p i r, Dealer.registeredAs s p i ⟨.receive s' m wo rnd, res⟩ → Dealer.regOf dh p = some r → i = r.id) :
    RB s (⟨.receive s' m wo rnd, res⟩ :: dh) (after st (down ++ messagesFor s out)) ∧ AllAcc ofReg st (down ++ messagesFor s out) := by
  rcases registrations_after h hu hd hout with ⟨r, g, rfl, rfl, hm, hask, ⟨m', a, hm', ha'⟩, hT⟩ | ⟨hmsgs, hT, hreg⟩
  · constructor
    · intro p r' hr' hs
      obtain ⟨o, ho⟩ := hnp (by rintro rfl; cases hm)
      rcases regOf_back hr' hs with ⟨r0, k1, k2, k3, k4⟩ | ⟨i, ⟨q, o', order, rnd', q', s'', he⟩, -⟩
      · rw [hT, if_neg]
        · rw [← k2]; exact hr p r0 k1 k3
        · rintro e
          exact k4 r wo rnd o (by rw [ho, k2, e])
      · simp at he
    · rw [hm]
      refine allAcc_snoc ha fun _ => accepts_unregistered hask ?_
      obtain ⟨p, r0, k1, k2, k3⟩ := hun m' a g hm' ha'
      rw [← k2]
      exact hr p r0 k1 k3
  · constructor
    · intro p r' hr' hs
      rcases regOf_back hr' hs with ⟨r0, k1, k2, k3, k4⟩ | ⟨i, hi, k⟩
      · rw [← k2]
        exact hT _ (hr p r0 k1 k3)
      · have hi' : i = r'.id := by
          rcases k with ⟨-, k⟩ | ⟨r0, k1, k2⟩
          · exact k
          · rw [← k2]; exact hid p i r0 hi k1
        obtain ⟨q, o, order, rnd', q', s'', he⟩ := hi
        injection he with e1 e2
        injection e1 with e3 e4
        rw [← hi']
        exact hreg q o p q' i s'' e3.symm e4 e2
    · by_cases hex : ∃ m' ∈ messagesFor s out, ∃ i g d a k bin, m' = .invocation i g d a k bin
      · obtain ⟨m', hm', i, g, d, a, k, bin, he⟩ := hex
        obtain ⟨e1, e2⟩ := (hmsgs m' hm').2 i g d a k bin he
        rw [e1, he]
        obtain ⟨p, r0, k1, k2, k3⟩ := hinv i g d a k bin e2
        refine allAcc_snoc ha fun _ => accepts_invocation ?_
        rw [← k2]
        exact hr p r0 k1 k3
      · refine (allAcc_append ..).2 ⟨ha, ?_⟩
        have : ∀ (q : List Msg) (T : Session.State), (∀ m' ∈ q, ¬ofReg m') → AllAcc ofReg T q := by
          intro q
          induction q with
          | nil => intro T _; trivial
          | cons m' q ih => exact fun T hq => ⟨fun hm => absurd hm (hq m' (.head _)), ih _ fun m'' hm'' => hq m'' (.tail _ hm'')⟩
        refine this _ _ fun m' hm' hs => ?_
        have h1 := (hmsgs m' hm').1
        cases m' <;> simp only [ofReg] at hs
        · exact h1 _ rfl
        · exact hex ⟨_, hm', _, _, _, _, _, _, rfl⟩

theorem reach_rb {x : Sys} (h : Reach w x) (s : Nat) (hlen : x.dh.length ≤ 2 ^ 53) (hf : Fresh x s) (ht : ∀ p, Dealer.Tame p x.dh) :
    RB s x.dh (after (x.client s) (x.down s)) ∧ AllAcc ofReg (x.client s) (x.down s) := by
  induction h with
  | new => exact ⟨(fun p r hr => nomatch hr), trivial⟩
  | act a hx ha ih =>
    have hc := act_change ha
    have hfx := hf.back hc
    have hA := reach_ai hx s hfx
    have htx : ∀ p, Dealer.Tame p _ := fun p => tame_back hc (ht p)
    obtain ⟨ih, ihA⟩ := ih (Nat.le_trans (change_grows hc).2.1 hlen) hfx htx
    obtain ⟨-, hdh⟩ := reach_hist hx
    cases hc with
    | admin bop dop j h1 h2 h3 =>
      refine ⟨fun p r hr hs => ?_, ihA⟩
      rcases regOf_back hr hs with ⟨r0, k1, k2, k3, -⟩ | ⟨i, ⟨q, o', order, rnd', q', s'', he⟩, -⟩
      · rw [← k2]
        exact ih p r0 k1 k3
      · injection he with e1
        subst e1
        exact h2.elim
    | send s' data m c v h1 =>
      by_cases hs : s = s'
      · subst hs
        simp only [upd_same]
        rename_i x' y'
        have hf' : (reqs (m :: x'.sent s)).Nodup := by simpa only [Fresh, upd_same] using hf
        obtain ⟨k1, k2, -⟩ := send_tabs hA.q h1 hf'
        exact ⟨ih.congr fun g => k2 .registrations g trivial (fun n hn => by cases hn), k1 _ (fun _ => ofReg_from) ihA⟩
      · simpa only [upd_other _ _ hs] using And.intro ih ihA
    | deliver s' m rest h1 =>
      by_cases hs : s = s'
      · subst hs
        simp only [upd_same]
        rw [h1] at ih ihA
        exact ⟨ih, ihA.2⟩
      · simpa only [upd_other _ _ hs] using And.intro ih ihA
    | broker s' m rest wo so op h1 h2 =>
      rename_i x' y'
      have hq : ∀ m' ∈ messagesFor s (brokerOut (Broker.step w x'.broker op).2), fromBroker m' := by
        intro m' hm'
        simp only [messagesFor, List.mem_map, List.mem_filter] at hm'
        obtain ⟨p, ⟨hp, -⟩, rfl⟩ := hm'
        exact brokerOut_from h2 p hp
      obtain ⟨k1, k2⟩ := posts_broker (fun _ => ofReg_from) hq ihA
      exact ⟨ih.congr fun g => k2 .registrations g trivial, k1⟩
    | dealer s' m rest wo rnd h1 h2 h3 =>
      rename_i x' y'
      have hlt : x'.dh.length < 2 ^ 53 := hlen
      have hR := Dealer.hist_rinv hdh (Nat.le_of_lt hlt)
      refine RB.dealer hA ih ihA (up := upd x'.up s' rest s) ?_ (dstep _ _ _ _ _ h2 h3) rfl ?_ ?_ ?_ ?_
      · by_cases hs : s = s'
        · subst hs; exact .inl ⟨rfl, by simp only [upd_same]; exact h1⟩
        · exact .inr ⟨hs, by simp only [upd_other _ _ hs]⟩
      · intro hne
        cases hr : (Dealer.step w x'.dealer (.receive s' m wo rnd)).2 with
        | ok o => exact ⟨o, rfl⟩
        | err => rw [hr] at hne; exact absurd rfl hne
        | panic => exact absurd hr h3
      · intro i g d a k bin hr
        obtain ⟨r, o, u, a', k', bin', rfl⟩ := (dstep _ _ _ _ _ h2 h3).of_invocation (by rw [hr]; rfl)
        obtain ⟨p, ⟨e, he, hp⟩, -⟩ := Dealer.C54_registered_partial hdh hlt s' r o u a' k' bin' wo rnd i g s d a k bin hr
        obtain ⟨g', k1, k2, k3, -⟩ := Dealer.C54_members hdh hlt p (htx p) s' r o u a' k' bin' wo rnd i g s d a k bin hr ⟨e, he, s, hp⟩
        exact ⟨p, g', k1, k2, k3⟩
      · intro m' a g hm' ha'
        have hT := Dealer.hist_tinv hdh (Nat.le_of_lt hlt) (htx (x'.dealer.heap a).procedure)
        have hI := Dealer.hist_hinv hdh (Nat.le_of_lt hlt) (htx (x'.dealer.heap a).procedure).held
        obtain ⟨k1, k2⟩ := hT.ses s m' g a hm' ha' rfl
        obtain ⟨r, l1, l2, -, -, l3, -⟩ := hI.live a k1
        exact ⟨_, r, l1, l2.trans (hR.sesp s m' g a hm' ha').2, (l3 s).1 k2⟩
      · intro p i r hreg hr
        exact (Dealer.C51_register hdh hlt p (htx p).held s i _ hreg).2 r hr
    | ignore s' m rest h1 => exact ⟨ih, ihA⟩

end Wamp.System
