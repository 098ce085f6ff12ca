import Verif.Props.Agree
/-!
# C120: client and router agree on registrations
-/
namespace Wamp.Dealer

variable {w : Str → Str → Bool}

/-- Only a successful REGISTER, UNREGISTER or removal changes what is held and owned. -/
theorem event_cases (e : Event) :
    (∃ s q o p wo rnd q' i t, e = ⟨.receive s (.register q o p) wo rnd, .ok (.msg (.registered q' i) t)⟩) ∨
    (∃ s q i wo rnd r, e = ⟨.receive s (.unregister q i) wo rnd, .ok r⟩) ∨
    (∃ s o r, e = ⟨.remove s o, .ok r⟩) ∨
    ∀ h p, (∀ s i, holds (e :: h) s p i ↔ holds h s p i) ∧ owner (e :: h) p = owner h p := by
  obtain ⟨op, res⟩ := e
  cases op with
  | receive s m wo rnd =>
    cases m with
    | register q o p =>
      cases res with
      | ok out =>
        cases out with
        | msg m t =>
          cases m with
          | registered q' i => exact .inl ⟨_, _, _, _, _, _, _, _, _, rfl⟩
          | _ => exact .inr (.inr (.inr fun _ _ => ⟨fun _ _ => Iff.rfl, rfl⟩))
        | _ => exact .inr (.inr (.inr fun _ _ => ⟨fun _ _ => Iff.rfl, rfl⟩))
      | _ => exact .inr (.inr (.inr fun _ _ => ⟨fun _ _ => Iff.rfl, rfl⟩))
    | unregister q i =>
      cases res with
      | ok out => exact .inr (.inl ⟨_, _, _, _, _, _, rfl⟩)
      | _ => exact .inr (.inr (.inr fun _ _ => ⟨fun _ _ => Iff.rfl, rfl⟩))
    | _ => exact .inr (.inr (.inr fun _ _ => ⟨fun _ _ => Iff.rfl, rfl⟩))
  | remove s o =>
    cases res with
    | ok out => exact .inr (.inr (.inl ⟨_, _, _, rfl⟩))
    | _ => exact .inr (.inr (.inr fun _ _ => ⟨fun _ _ => Iff.rfl, rfl⟩))
  | _ => exact .inr (.inr (.inr fun _ _ => ⟨fun _ _ => Iff.rfl, rfl⟩))

/-- `s` was registered for `p` under ID `i` at some time. -/
def idOf' (h : List Event) (s : Nat) (p : Str) (i : Nat) : Prop := ∃ e ∈ h, registeredAs s p i e

theorem idOf'_cons {e : Event} {h : List Event} {s i : Nat} {p : Str} (hi : idOf' h s p i) : idOf' (e :: h) s p i :=
  hi.elim fun x hx => ⟨x, .tail _ hx.1, hx.2⟩

theorem holds_asked {h : List Event} {s i : Nat} {p : Str} (hh : holds h s p i) : idOf' h s p i := by
  induction h with
  | nil => exact hh.elim
  | cons e h ih =>
    rcases event_cases e with ⟨s', q, o, p', wo, rnd, q', i', t, rfl⟩ | ⟨s', q, i', wo, rnd, r, rfl⟩ | ⟨s', o, r, rfl⟩ | e
    · rcases hh with ⟨rfl, rfl, rfl⟩ | hh
      · exact ⟨_, .head _, q, o, wo, rnd, q', t, rfl⟩
      · exact idOf'_cons (ih hh)
    · exact idOf'_cons (ih hh.2)
    · exact idOf'_cons (ih hh.2)
    · exact idOf'_cons (ih (((e h p).1 s i).1 hh))

theorem owner_asked {h : List Event} {s i : Nat} {p : Str} (hh : owner h p = some (s, i)) : idOf' h s p i := by
  induction h with
  | nil => cases hh
  | cons e h ih =>
    rcases event_cases e with ⟨s', q, o, p', wo, rnd, q', i', t, rfl⟩ | ⟨s', q, i', wo, rnd, r, rfl⟩ | ⟨s', o, r, rfl⟩ | e
    · simp only [owner] at hh
      split at hh
      · rename_i e
        cases hh; subst e
        exact ⟨_, .head _, q, o, wo, rnd, q', t, rfl⟩
      · exact idOf'_cons (ih hh)
    · simp only [owner] at hh
      split at hh
      · cases hh
      · exact idOf'_cons (ih hh)
    · simp only [owner] at hh
      split at hh
      · cases hh
      · exact idOf'_cons (ih hh)
    · exact idOf'_cons (ih (((e h p).2).symm.trans hh))

/-- While all REGISTERs for a procedure ask for the single policy, the one who holds its registration is its owner. -/
theorem holds_owner {h : List Event} {b : State} (hh : Hist w h b) (hlen : h.length ≤ 2 ^ 53) {p : Str} (hs : Single p h) (s i : Nat) :
    holds h s p i ↔ owner h p = some (s, i) := by
  induction hh generalizing s i with
  | new => exact ⟨fun h => h.elim, fun h => nomatch h⟩
  | @step h b op hh hnp ih =>
    simp only [List.length_cons] at hlen
    have ih := ih (by omega) hs.tail
    rcases event_cases ⟨op, (step w b op).2⟩ with ⟨s', q, o, p', wo, rnd, q', i', t, e⟩ | ⟨s', q, i', wo, rnd, r, e⟩ | ⟨s', o, r, e⟩ | e
    · rw [e]
      simp only [holds, owner]
      injection e with e1 e2
      subst e1
      by_cases hp : p' = p
      · subst hp
        rw [if_pos rfl]
        have hno : owner h p' = none := by
          cases ho : owner h p' with
          | none => rfl
          | some v =>
            have ha : attached h s' := by
              rw [attached, ← (hist_sinv hh).bys]
              simp only [step, receive] at e2
              rcases register_cases b s' q o p' with ⟨-, e⟩ | ⟨m, hm, -⟩
              · rw [e] at e2; cases e2
              · rw [hm]; rfl
            have := (C52_register hh (by omega) p' hs.tail s' q o wo rnd ha).1.1 (by rw [ho]; nofun)
            rw [e2] at this
            cases this
        rw [ih, hno]
        simp
      · simp [hp, ih]
    · rw [e]
      simp only [holds, owner, ih]
      split
      · rename_i e; grind
      · grind
    · rw [e]
      simp only [holds, owner, ih]
      split
      · rename_i e
        grind
      · grind
    · rw [(e h p).1, (e h p).2, ih]

end Wamp.Dealer

namespace Wamp.System
open Wamp.Session

variable {w : Str → Str → Bool}

theorem next_regs {T : Session.State} {m : Msg} (h1 : ∀ r i, m ≠ .registered r i) (h2 : ∀ r, m ≠ .unregistered r) (k : Nat) :
    next T m .registrations k = T .registrations k := by
  cases m <;> simp only [next, recv, Prog.run] <;> try rfl
  case result r d _ _ _ =>
    cases T .call r <;> simp only [Prog.run]
    split <;> rfl
  case registered r g => exact absurd rfl (h1 r g)
  case unregistered r => exact absurd rfl (h2 r)
  case invocation r g _ _ _ _ => cases T .registrations g <;> rfl
  case published r n => cases T .publish r <;> rfl
  case subscribed r i => cases T .subscribe r <;> rfl
  case unsubscribed r =>
    cases T .unsubscribe r <;> simp only [Prog.run]
    rename_i g
    cases T .subscriptions g <;> rfl
  case event i _ _ _ _ => cases T .subscriptions i <;> rfl
  case error t r _ _ _ _ =>
    cases ht : errorTab t with
    | none => rfl
    | some tab =>
      have : tab ≠ .registrations := by
        rintro rfl
        simp only [errorTab] at ht
        split at ht <;> cases ht
      simp only [Prog.run]
      cases T tab r <;> simp [Prog.run, State.put, Ne.symm this]

theorem after_regs {q : List Msg} (hq : ∀ m ∈ q, (∀ r i, m ≠ .registered r i) ∧ ∀ r, m ≠ .unregistered r) (T : Session.State) (k : Nat) :
    after T q .registrations k = T .registrations k := by
  induction q generalizing T with
  | nil => rfl
  | cons m q ih =>
    obtain ⟨h1, h2⟩ := hq m (.head _)
    rw [after, ih (fun m' hm' => hq m' (.tail _ hm')), next_regs h1 h2]

theorem regs_change {x y : Sys} (hc : Change w x y) (s : Nat) (hf : Fresh y s) (hs : Stays y s) (hai : AI s x.dealer (x.client s) (x.up s) (x.down s) (x.sent s))
    (ih : ∀ g, (after (x.client s) (x.down s) .registrations g).isSome = true ↔ ∃ p, Dealer.holds x.dh s p g) :
    ∀ g, (after (y.client s) (y.down s) .registrations g).isSome = true ↔ ∃ p, Dealer.holds y.dh s p g := by
  intro g
  cases hc with
  | admin bop dop j h1 h2 h3 =>
    refine (ih g).trans (exists_congr fun p => ?_)
    rcases Dealer.event_cases ⟨dop, (Dealer.step w x.dealer dop).2⟩ with ⟨_, _, _, _, _, _, _, _, _, e⟩ | ⟨_, _, _, _, _, _, e⟩ | ⟨s', o, r, e⟩ | e
    · injection e with e _; subst e; exact h2.elim
    · injection e with e _; subst e; exact h2.elim
    · simp only
      rw [e]
      injection e with e _
      have := hs.2 _ (.head _) o
      simp only [Dealer.holds]
      refine (and_iff_right ?_).symm
      rintro rfl
      exact this e
    · exact ((e x.dh p).1 s g).symm
  | send s' data m c b h1 =>
    simp only [upd]
    split
    · rename_i e
      subst e
      rw [(send_tabs hai.q h1 (by simpa only [Fresh, upd_same] using hf)).2.1 .registrations g trivial (by nofun)]
      exact ih g
    · exact ih g
  | deliver s' m rest h1 =>
    simp only [upd]
    split
    · rename_i e
      subst e
      rw [← ih g, h1]
      rfl
    · exact ih g
  | ignore s' m rest h1 => exact ih g
  | broker s' m rest wo so op h1 h2 =>
    simp only
    rw [after_append, after_regs]
    · exact ih g
    · intro m' hm'
      simp only [messagesFor, List.mem_map, List.mem_filter] at hm'
      obtain ⟨p, ⟨hp, -⟩, rfl⟩ := hm'
      have := brokerOut_from h2 p hp
      exact ⟨fun r i e => by rw [e] at this; exact this, fun r e => by rw [e] at this; exact this⟩
  | dealer s' m rest wo rnd h1 h2 h3 =>
    simp only
    by_cases hr : ∃ q o p, m = .register q o p
    · obtain ⟨q, o, p, rfl⟩ := hr
      have key : (∃ i, (Dealer.step w x.dealer (.receive s' (.register q o p) wo rnd)).2 = .ok (.msg (.registered q i) s')) ∨
          (∀ m ∈ messagesFor s (dealerOut (Dealer.step w x.dealer (.receive s' (.register q o p) wo rnd)).2),
            (∀ r i, m ≠ .registered r i) ∧ ∀ r, m ≠ .unregistered r) ∧
          ∀ p' i, Dealer.holds (⟨.receive s' (.register q o p) wo rnd, (Dealer.step w x.dealer (.receive s' (.register q o p) wo rnd)).2⟩ :: x.dh) s p' i ↔
            Dealer.holds x.dh s p' i := by
        simp only [Dealer.step, Dealer.receive]
        rcases Dealer.register_cases x.dealer s' q o p with ⟨-, e⟩ | ⟨m, -, ⟨a, -, -, e⟩ | ⟨a, -, -, e⟩ | ⟨-, e⟩⟩ <;> rw [e]
        · exact .inr ⟨fun m hm => (nomatch hm), fun _ _ => Iff.rfl⟩
        · refine .inr ⟨fun m hm => ?_, fun _ _ => Iff.rfl⟩
          simp only [Res.map_ok, dealerOut, messagesFor_one] at hm
          split at hm
          · cases List.mem_singleton.1 hm
            exact ⟨by nofun, by nofun⟩
          · cases hm
        · exact .inl ⟨_, rfl⟩
        · exact .inl ⟨_, rfl⟩
      rcases key with ⟨i, e⟩ | ⟨k1, k2⟩
      · rw [e]
        simp only [dealerOut, messagesFor_one, Dealer.holds]
        by_cases hss : s' = s
        · subst hss
          have hv := hai.d.reg q o p (by rw [h1]; exact .head _)
          rw [if_pos rfl, after_append, after, after, next_registered hv, if_neg (by nofun)]
          by_cases hg : g = i
          · subst hg
            simp only [and_self, if_true, Option.isSome_some, true_iff]
            exact ⟨p, .inl ⟨trivial, rfl, trivial⟩⟩
          · rw [if_neg (by simpa using hg), ih g]
            refine exists_congr fun p' => ?_
            simp [Ne.symm hg]
        · rw [if_neg hss, List.append_nil, ih g]
          simp [hss]
      · rw [after_append, after_regs k1]
        refine (ih g).trans (exists_congr fun p' => (k2 p' g).symm)
    · by_cases hu : ∃ q i, m = .unregister q i
      · obtain ⟨q, i, rfl⟩ := hu
        simp only [Dealer.step, Dealer.receive] at h3 ⊢
        rcases Dealer.unregister_cases x.dealer s' q i with e | e | ⟨m', a', -, -, e, -⟩
        · rw [e]
          simp only [Res.map_err, dealerOut, messagesFor_nil, List.append_nil]
          exact ih g
        · rw [e] at h3; exact absurd rfl h3
        · rw [e]
          simp only [Res.map_ok, dealerOut, messagesFor_one, Dealer.holds]
          by_cases hss : s' = s
          · subst hss
            have hv := hai.d.unr q i (by rw [h1]; exact .head _)
            rw [if_pos rfl, after_append, after, after, next_unregistered hv]
            by_cases hg : g = i
            · subst hg
              simp
            · rw [if_neg (by simpa using hg), ih g]
              simp [Ne.symm hg]
          · rw [if_neg hss, List.append_nil, ih g]
            simp [hss]
      · have k2 : ∀ p, Dealer.holds (⟨.receive s' m wo rnd, (Dealer.step w x.dealer (.receive s' m wo rnd)).2⟩ :: x.dh) s p g ↔ Dealer.holds x.dh s p g := by
          intro p
          rcases Dealer.event_cases ⟨.receive s' m wo rnd, (Dealer.step w x.dealer (.receive s' m wo rnd)).2⟩ with
            ⟨_, _, _, _, _, _, _, _, _, e⟩ | ⟨_, _, _, _, _, _, e⟩ | ⟨s', o, r, e⟩ | e
          · injection e with e _; injection e with _ e; exact absurd ⟨_, _, _, e⟩ hr
          · injection e with e _; injection e with _ e; exact absurd ⟨_, _, e⟩ hu
          · injection e with e _; cases e
          · exact (e x.dh p).1 s g
        simp only [k2]
        rw [after_append, after_regs]
        · exact ih g
        · intro m' hm'
          have hst := dstep (w := w) x.dealer s' m wo rnd h2 h3
          replace hm' := mem_messagesFor.1 hm'
          generalize dealerOut (Dealer.step w x.dealer (.receive s' m wo rnd)).2 = out at hst hm'
          generalize (Dealer.step w x.dealer (.receive s' m wo rnd)).1 = b' at hst
          have hinv : ∀ {out : List (Nat × Msg)}, (out = [] ∨ ∃ j g d a' k' bin' c, out = [(c, .invocation j g d a' k' bin')]) → (s, m') ∈ out →
              (∀ r i, m' ≠ .registered r i) ∧ ∀ r, m' ≠ .unregistered r := by
            rintro out (rfl | ⟨j, g, d, a', k', bin', c, rfl⟩) hm
            · cases hm
            · cases List.mem_singleton.1 hm; exact ⟨by nofun, by nofun⟩
          cases hst with
          | quiet => cases hm'
          | dropped => cases hm'
          | called r o u a k bin i p b' out _ _ _ _ e => exact hinv e hm'
          | continued r o u a k bin i b' out _ _ _ e => exact hinv e hm'
          | registered r o u => exact absurd ⟨r, o, u, rfl⟩ hr
          | taken r o u => exact absurd ⟨r, o, u, rfl⟩ hr
          | unregistered r g => exact absurd ⟨r, g, rfl⟩ hu
          | _ => cases List.mem_singleton.1 hm'; exact ⟨by nofun, by nofun⟩

/-- The registrations in the client's table, once it has worked off what is under way to it, are those that it holds. -/
theorem reach_regs {x : Sys} (h : Reach w x) (s : Nat) (hf : Fresh x s) (hs : Stays x s) :
    ∀ g, (after (x.client s) (x.down s) .registrations g).isSome = true ↔ ∃ p, Dealer.holds x.dh s p g := by
  induction h with
  | new => exact fun g => ⟨fun h => (nomatch h), fun ⟨_, h⟩ => h.elim⟩
  | @act x y a hx ha ih =>
    have hc := act_change ha
    exact regs_change hc s hf hs (reach_ai hx s (hf.back hc)) (ih (hf.back hc) (Stays.back hc hs))

theorem accepts_invocation_iff {T : Session.State} {n g : Nat} {d : GoMap} {a : GoSlice} {k : GoMap} {bin : Bin} :
    Accepts T (.invocation n g d a k bin) ↔ (T .registrations g).isSome = true := by
  simp only [Accepts, recv, Prog.run]
  cases T .registrations g <;> simp [Prog.run]

/-- **C120** Client and router agree: unless the client was removed or has used a request ID twice, it would accept an INVOCATION for a registration,
once it has worked off what is under way to it, exactly if the router has registered it under that ID and it has not unregistered since. -/
theorem C120_registrations_agree {x : Sys} (h : Reach w x) (s : Nat) (hf : Fresh x s) (hs : Stays x s) (hd : x.down s = [])
    (n g : Nat) (d : GoMap) (a : GoSlice) (k : GoMap) (bin : Bin) :
    Accepts (x.client s) (.invocation n g d a k bin) ↔ ∃ p, Dealer.holds x.dh s p g := by
  have h1 := reach_regs h s hf hs g
  rw [hd] at h1
  rw [accepts_invocation_iff]
  exact h1

/-- **C120** If all REGISTERs for the procedures that the client registered ask for the single policy: … exactly if it is the owner of a procedure
under that ID, that is, the one whom the router sends the calls for that procedure (`C52_only_owner`). -/
theorem C120_owner {x : Sys} (h : Reach w x) (hlen : x.dh.length ≤ 2 ^ 53) (s : Nat) (hf : Fresh x s) (hs : Stays x s) (hd : x.down s = [])
    (hsingle : ∀ r o p, .register r o p ∈ x.sent s → ∀ s' r' o', .register r' o' p ∈ x.sent s' →
      o'.text (str "invoke") = [] ∨ o'.text (str "invoke") = str "single")
    (n g : Nat) (d : GoMap) (a : GoSlice) (k : GoMap) (bin : Bin) :
    Accepts (x.client s) (.invocation n g d a k bin) ↔ ∃ p, Dealer.owner x.dh p = some (s, g) := by
  rw [C120_registrations_agree h s hf hs hd]
  have hS := reach_sent h
  refine exists_congr fun p => ?_
  by_cases hp : Dealer.Single p x.dh
  · exact Dealer.holds_owner (reach_hist h).2 hlen hp s g
  · have hno : ∀ i, ¬Dealer.idOf' x.dh s p i := by
      rintro i ⟨e, he, q, o, wo, rnd, q', s'', rfl⟩
      refine hp fun e' he' s' r' o' wo' rnd' hop => ?_
      exact hsingle _ _ _ (hS.dh _ he _ _ _ _ rfl) s' r' o' (hS.dh _ he' _ _ _ _ hop)
    exact ⟨fun hh => absurd (Dealer.holds_asked hh) (hno g), fun hh => absurd (Dealer.owner_asked hh) (hno g)⟩

/-- Client 2 registers "p", unregisters and, after 3 has registered it, registers "q". -/
def moveOn : List Action :=
  handOver ++ does 2 (.register 3 none (str "q")) ++ [.deliver 2, .deliver 2, .deliver 2, .deliver 2]

example : Reach Dealer.noWild (logged moveOn).sys ∧ (logged moveOn).sys.dh.length ≤ 2 ^ 53 ∧ Fresh (logged moveOn).sys 2 ∧
    Stays (logged moveOn).sys 2 ∧ (logged moveOn).sys.down 2 = [] ∧ Dealer.owner (logged moveOn).sys.dh (str "p") = some (3, 3) ∧
    Dealer.owner (logged moveOn).sys.dh (str "q") = some (2, 5) ∧ Dealer.holds (logged moveOn).sys.dh 2 (str "q") 5 ∧
    Accepts ((logged moveOn).sys.client 2) (.invocation 9 5 none none none Bin.none) ∧
    ¬Accepts ((logged moveOn).sys.client 2) (.invocation 9 1 none none none Bin.none) ∧
    ∀ s r o p, .register r o p ∈ (logged moveOn).sys.sent s → o = none := by
  refine ⟨log_sys (reach_logged _), by decide +kernel, by unfold Fresh; decide +kernel, stays_of (by decide +kernel), rfl, by decide +kernel,
    by decide +kernel, .inl ⟨rfl, rfl, by decide +kernel⟩, accepts_invocation_iff.2 (by decide +kernel),
    fun h => absurd (accepts_invocation_iff.1 h) (by decide +kernel), ?_⟩
  intro s r o p hm
  have hj := (reach_att (log_sys (reach_logged moveOn)) (by decide +kernel)).sj s (List.ne_nil_of_mem hm)
  have hj' : s ∈ [3, 2, 1] := hj
  simp only [List.mem_cons, List.not_mem_nil, or_false] at hj'
  rcases hj' with rfl | rfl | rfl
  · have : (logged moveOn).sys.sent 3 = [.register 1 none (str "p")] := rfl
    rw [this] at hm
    simp at hm
    exact hm.2.1
  · have : (logged moveOn).sys.sent 2 = [.register 3 none (str "q"), .unregister 2 1, .register 1 none (str "p")] := rfl
    rw [this] at hm
    simp at hm
    rcases hm with h | h <;> exact h.2.1
  · have : (logged moveOn).sys.sent 1 = [.call 2 none (str "p") none none Bin.none, .call 1 none (str "p") none none Bin.none] := rfl
    rw [this] at hm
    simp at hm

/-- **C120** With shared registrations the router may send calls to a client that is not registered any more: after its UNREGISTER was
confirmed client 2 does not accept them. -/
theorem C120_shared : ∃ x n d, Reach Dealer.noWild x ∧ Fresh x 2 ∧ Stays x 2 ∧ x.down 2 = [.invocation n 1 d none none Bin.none] ∧
    (∀ p, ¬Dealer.holds x.dh 2 p 1) ∧ ¬Accepts (x.client 2) (.invocation n 1 d none none Bin.none) := by
  refine ⟨(logged (halfShared ++ [.deliver 2, .deliver 2])).sys, _, _, log_sys (reach_logged _), by unfold Fresh; decide +kernel, stays_of (by decide +kernel), rfl,
    fun p h => ?_, fun h => absurd (accepts_invocation_iff.1 h) (by decide +kernel)⟩
  obtain ⟨h, -⟩ := h
  exact h ⟨rfl, rfl⟩

end Wamp.System
