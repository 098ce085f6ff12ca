import Verif.Props.Foreign
import Verif.Props.AgreeRegs
/-!
# C131: clients and router agree, whatever others do
-/
namespace Wamp.System
open Wamp Session

variable {w : Str → Str → Bool} {F : Nat → Bool}

/-- A move is a change of the system, or a foreign client writes a message. -/
theorem move_change {l l' : Log} {v : Move} (h : l.move w F v = some l') : Change w l.sys l'.sys ∨
    ∃ s m, F s = true ∧ l'.sys = { l.sys with up := upd l.sys.up s (l.sys.up s ++ [m]), sent := upd l.sys.sent s (m :: l.sys.sent s) } := by
  have key : ∀ a, l.act w a = some l' → Change w l.sys l'.sys := by
    intro a ha
    obtain ⟨y, h1, rfl⟩ := Option.map_eq_some_iff.1 ha
    exact act_change h1
  cases v with
  | inject s m =>
    simp only [Log.move] at h
    split at h
    · rename_i hF
      cases h
      exact .inr ⟨s, m, hF.1, rfl⟩
    · cases h
  | act a =>
    cases a <;> simp only [Log.move] at h
    case send s data m =>
      split at h
      · cases h
      · exact .inl (key _ h)
    all_goals exact .inl (key _ h)

theorem open_hist {l : Log} (h : Log.Open w F l) : Broker.Hist w l.sys.bh l.sys.broker ∧ Dealer.Hist w l.sys.dh l.sys.dealer := by
  induction h with
  | new => exact ⟨.new, .new⟩
  | move v _ hv ih =>
    rcases move_change hv with hc | ⟨s, m, -, e⟩
    · exact hist_change hc ih
    · rw [e]; exact ih

theorem open_sent {l : Log} (h : Log.Open w F l) : SentInv l.sys := by
  induction h with
  | new => exact ⟨by simp [Log.new, Sys.new], by simp [Log.new, Sys.new], by simp [Log.new, Sys.new]⟩
  | move v _ hv ih =>
    rcases move_change hv with hc | ⟨s, m, -, e⟩
    · exact sent_change hc ih
    · rw [e]
      obtain ⟨i1, i2, i3⟩ := ih
      have key : ∀ {f : Nat → List Msg} (p : Nat) (m' : Msg), m' ∈ f p → m' ∈ upd f s (m :: f s) p := by
        intro f p m' hm'
        simp only [upd]
        split
        · rename_i e; subst e; exact .tail _ hm'
        · exact hm'
      refine ⟨?_, fun e he p m' hop => key p m' (i2 e he p m' hop), fun e he p m' o r hop => key p m' (i3 e he p m' o r hop)⟩
      intro p m' hm'
      simp only [upd] at hm' ⊢
      split at hm' <;> rename_i e
      · subst e
        rw [if_pos rfl]
        rcases List.mem_append.1 hm' with hm' | hm'
        · exact .tail _ (i1 _ _ hm')
        · rcases List.mem_singleton.1 hm' with rfl; exact .head _
      · rw [if_neg e]; exact i1 p m' hm'

theorem open_regs {l : Log} (h : Log.Open w F l) (hb : l.sys.bh.length < 2 ^ 53) (s : Nat) (hF : F s = false) (hf : Fresh l.sys s) (hs : Stays l.sys s) :
    ∀ g, (after (l.sys.client s) (l.sys.down s) .registrations g).isSome = true ↔ ∃ p, Dealer.holds l.sys.dh s p g := by
  induction h with
  | new => exact fun g => ⟨fun h => (nomatch h), fun ⟨_, h⟩ => h.elim⟩
  | @move l l' v hl hv ih =>
    rcases move_change hv with hc | ⟨s', m, hs', e⟩
    · have hb' : l.sys.bh.length < 2 ^ 53 := Nat.lt_of_le_of_lt (change_grows hc).1 hb
      obtain ⟨x, h1, h2⟩ := open_like hl hb'
      have hai := reach_ai (log_sys h1) s (h2.fresh (hf.back hc))
      rw [h2.dealer, h2.client s hF, h2.up s hF, h2.down s hF, h2.sent s hF] at hai
      exact regs_change hc s hf hs hai (ih hb' (hf.back hc) (Stays.back hc hs))
    · have hne : s ≠ s' := by
        rintro rfl
        rw [hF] at hs'; cases hs'
      rw [e] at hb hf hs ⊢
      refine ih hb ?_ hs
      unfold Fresh at hf ⊢
      simpa only [upd, if_neg hne] using hf

/-- **C131** What is under way to a client of this library being worked off, it accepts an EVENT for a subscription exactly if it is subscribed at the broker
under that ID, whatever the others send. -/
theorem C131_subscriptions_agree {y : Log} (h : Log.Open w F y) (hb : y.sys.bh.length < 2 ^ 53) (s : Nat) (hF : F s = false) (hf : Fresh y.sys s)
    (hs : Stays y.sys s) (hd : y.sys.down s = []) (i n : Nat) (d : GoMap) (a : GoSlice) (k : GoMap) :
    Accepts (y.sys.client s) (.event i n d a k) ↔ ∃ t, Broker.current y.sys.bh s t = some i := by
  obtain ⟨x, h1, h2⟩ := open_like h hb
  rw [← h2.client s hF, C115_subscriptions_agree (log_sys h1) (Nat.le_of_lt (h2.bhLen hb)) s (h2.fresh hf) (h2.stays hs) (by rw [h2.down s hF, hd])]
  refine exists_congr fun t => ?_
  rw [(Broker.hist_inv (reach_hist (log_sys h1)).1 (Nat.le_of_lt (h2.bhLen hb))).cur s t i, (Broker.hist_inv (open_hist h).1 (Nat.le_of_lt hb)).cur s t i, h2.broker]

/-- **C131** It accepts an INVOCATION for a registration exactly if the router has registered it under that ID and it has not unregistered since. -/
theorem C131_registrations_agree {y : Log} (h : Log.Open w F y) (hb : y.sys.bh.length < 2 ^ 53) (s : Nat) (hF : F s = false) (hf : Fresh y.sys s)
    (hs : Stays y.sys s) (hd : y.sys.down s = []) (n g : Nat) (d : GoMap) (a : GoSlice) (k : GoMap) (bin : Bin) :
    Accepts (y.sys.client s) (.invocation n g d a k bin) ↔ ∃ p, Dealer.holds y.sys.dh s p g := by
  have h1 := open_regs h hb s hF hf hs g
  rw [hd] at h1
  rw [accepts_invocation_iff]
  exact h1

/-- **C131** … exactly if the router sends it the calls of a procedure under that ID, if nobody, of either kind, asks for a shared registration of a procedure
that it registers. -/
theorem C131_owner {y : Log} (h : Log.Open w F y) (hb : y.sys.bh.length < 2 ^ 53) (hlen : y.sys.dh.length ≤ 2 ^ 53) (s : Nat) (hF : F s = false)
    (hf : Fresh y.sys s) (hs : Stays y.sys s) (hd : y.sys.down s = [])
    (hsingle : ∀ r o p, .register r o p ∈ y.sys.sent s → ∀ s' r' o', .register r' o' p ∈ y.sys.sent s' →
      o'.text (str "invoke") = [] ∨ o'.text (str "invoke") = str "single")
    (n g : Nat) (d : GoMap) (a : GoSlice) (k : GoMap) (bin : Bin) :
    Accepts (y.sys.client s) (.invocation n g d a k bin) ↔ ∃ p, Dealer.owner y.sys.dh p = some (s, g) := by
  rw [C131_registrations_agree h hb s hF hf hs hd]
  have hS := open_sent h
  refine exists_congr fun p => ?_
  by_cases hp : Dealer.Single p y.sys.dh
  · exact Dealer.holds_owner (open_hist h).2 hlen hp s g
  · have hno : ∀ i, ¬Dealer.idOf' y.sys.dh s p i := by
      rintro i ⟨e, he, q, o, wo, rnd, q', s'', rfl⟩
      refine hp fun e' he' s' r' o' wo' rnd' hop => ?_
      exact hsingle _ _ _ (hS.dh _ he _ _ _ _ rfl) s' r' o' (hS.dh _ he' _ _ _ _ hop)
    exact ⟨fun hh => absurd (Dealer.holds_asked hh) (hno g), fun hh => absurd (Dealer.owner_asked hh) (hno g)⟩

/-- Client 1 takes what was sent to it. -/
private def takeAll : List Move := [.act (.deliver 1), .act (.deliver 1)]

example : Log.Open Dealer.noWild third (openLog third (startUp ++ hostile ++ goOn ++ takeAll)) ∧
    Fresh (openLog third (startUp ++ hostile ++ goOn ++ takeAll)).sys 1 ∧ Stays (openLog third (startUp ++ hostile ++ goOn ++ takeAll)).sys 1 ∧
    (openLog third (startUp ++ hostile ++ goOn ++ takeAll)).sys.down 1 = [] ∧ (openLog third (startUp ++ hostile ++ goOn ++ takeAll)).sys.down 2 = [] ∧
    Broker.current (openLog third (startUp ++ hostile ++ goOn ++ takeAll)).sys.bh 1 (str "t") = some 1 ∧
    Dealer.owner (openLog third (startUp ++ hostile ++ goOn ++ takeAll)).sys.dh (str "p") = some (2, 1) :=
  ⟨reach_open _ _, by unfold Fresh; decide +kernel, stays_of (by decide +kernel), rfl, rfl, by decide +kernel, by decide +kernel⟩

end Wamp.System
