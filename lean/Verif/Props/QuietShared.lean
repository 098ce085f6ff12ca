import Verif.Props.Quiet
import Verif.Props.AgreeRegs
/-!
# C114 for shared registrations
-/
namespace Wamp.System
open Wamp

variable {w : Str → Str → Bool}

theorem holds_before {op : Dealer.Op} {r : Res Dealer.Out} {h : List Dealer.Event} {s g : Nat} {p : Str}
    (hc : Dealer.holds (⟨op, r⟩ :: h) s p g) :
    (Dealer.holds h s p g ∧ ∀ q wo rnd out, op = .receive s (.unregister q g) wo rnd → r ≠ .ok out) ∨
      ∃ q o wo rnd q' s', op = .receive s (.register q o p) wo rnd ∧ r = .ok (.msg (.registered q' g) s') := by
  rcases Dealer.event_cases ⟨op, r⟩ with ⟨s', q, o, p', wo, rnd, q', i', t, e⟩ | ⟨s', q, i', wo, rnd, r', e⟩ | ⟨s', o, r', e⟩ | e
  · injection e with e1 e2
    subst e1 e2
    rcases hc with ⟨rfl, rfl, rfl⟩ | hc
    · exact .inr ⟨_, _, _, _, _, _, rfl, rfl⟩
    · exact .inl ⟨hc, fun _ _ _ _ h => by cases h⟩
  · injection e with e1 e2
    subst e1 e2
    refine .inl ⟨hc.2, fun q _ _ out h => ?_⟩
    cases h
    exact absurd ⟨rfl, rfl⟩ hc.1
  · injection e with e1 e2
    subst e1 e2
    exact .inl ⟨hc.2, fun _ _ _ _ h => by cases h⟩
  · refine .inl ⟨((e h p).1 s g).1 hc, fun q wo rnd out h1 h2 => ?_⟩
    subst h1 h2
    -- a successful UNREGISTER is not among the other events
    have h1 := (e [⟨.receive s (.register 0 none p) [] 0, .ok (.msg (.registered 0 g) s)⟩] p).1 s g
    simp [Dealer.holds] at h1

/-- Who is sent an INVOCATION for a registration of `p` holds it. -/
theorem invoked_holds {h : List Dealer.Event} {b : Dealer.State} (hh : Dealer.Hist w h b) (hlen : h.length < 2 ^ 53) {p : Str} (ht : Dealer.Tame p h)
    {c r : Nat} {o : GoMap} {u : Str} {a : GoSlice} {k : GoMap} {bin : Bin} {order : List Str} {rnd : Nat}
    {j i s : Nat} {d : GoMap} {a' : GoSlice} {k' : GoMap} {bin' : Bin}
    (he : (Dealer.step w b (.receive c (.call r o u a k bin) order rnd)).2 = .ok (.msg (.invocation j i d a' k' bin') s)) (hi : Dealer.idOf h p i) :
    Dealer.holds h s p i := by
  obtain ⟨g, h1, h2, h3, -⟩ := Dealer.C54_members hh hlen p ht _ _ _ _ _ _ _ _ _ _ _ _ _ _ _ _ he hi
  have hI := Dealer.hist_hinv hh (Nat.le_of_lt hlen) ht.held
  have hW := Dealer.hist_winv hh (Nat.le_of_lt hlen)
  cases hb : b.byProc p with
  | none => rw [hI.dead hb] at h1; cases h1
  | some x =>
    obtain ⟨g', e1, e2, -, -, e3, -⟩ := hI.live x hb
    rw [h1] at e1
    cases e1
    have := (hW.who p x s hb ((e3 s).2 h3)).2
    rw [← e2, h2] at this
    exact this

theorem quietT {l : Log} (h : Log.Reach w l) (hb : l.sys.bh.length ≤ 2 ^ 53) (hd : l.sys.dh.length ≤ 2 ^ 53) (F : List Msg) (s g : Nat)
    (hF : ∀ m ∈ l.sys.sent s, m ∈ F) (hq : ∀ q i j, .unregister q i ∈ F → .unregister q j ∈ F → i = j)
    (ht : ∀ r o p, .register r o p ∈ F → Dealer.Tame p l.sys.dh) :
    (∀ p, Dealer.holds l.sys.dh s p g → openedR F g (l.inbox s)) ∧
    ∀ pre post n d a k bin, l.inbox s = pre ++ .invocation n g d a k bin :: post → openedR F g pre := by
  induction h with
  | new =>
    refine ⟨fun t h => ?_, fun pre post n d a k bin h => ?_⟩
    · exact h.elim
    · simp [Log.new, Sys.new, Log.inbox] at h
  | act ac hl ha ih =>
    rename_i l l'
    have hc := log_change ha
    have hlen := change_grows hc
    have hF' : ∀ m ∈ l.sys.sent s, m ∈ F := fun m hm => hF m ((hlen.2.2 s).subset hm)
    have ht' : ∀ r o p, .register r o p ∈ F → Dealer.Tame p l.sys.dh := fun r o p h => tame_back hc (ht r o p h)
    obtain ⟨i1, i2⟩ := ih (Nat.le_trans hlen.1 hb) (Nat.le_trans hlen.2.1 hd) hF' ht'
    have hx := log_sys hl
    have hh := reach_hist hx
    have hS := reach_sent hx
    cases log_step ha with
    | admin bop dop j h1 h2 h3 =>
      refine ⟨fun t h => ?_, i2⟩
      rcases holds_before h with ⟨h, -⟩ | ⟨_, _, _, _, _, _, rfl, -⟩
      · exact i1 t h
      · exact h2.elim
    | send p data m c h1 => exact ⟨i1, i2⟩
    | ignore p m rest h1 h2 h3 => exact ⟨i1, i2⟩
    | deliver p m rest c h1 =>
      rw [inbox_deliver c h1]
      exact ⟨i1, i2⟩
    | broker p m rest wo so op h1 h2 =>
      have hlt : l.sys.bh.length < 2 ^ 53 := by simp only [List.length_cons] at hb; exact hb
      have hno : ∀ m' ∈ messagesFor s (brokerOut (Broker.step w l.sys.broker op).2), fromBroker m' :=
        fun m' hm' => broker_from hh.1 hlt _ (mem_messagesFor.1 hm')
      simp only [Log.inbox] at i1 i2 ⊢
      rw [← List.append_assoc]
      refine ⟨fun t h => (i1 t h).append fun q hq' => (hno _ hq').elim, fun pre post n d a k bin => invocation_split i2 fun pre post n d a k bin he => ?_⟩
      exact (hno (.invocation n g d a k bin) (by rw [he]; simp)).elim
    | dealer p m rest wo rnd h1 h2 h3 =>
      have hlt : l.sys.dh.length < 2 ^ 53 := by simp only [List.length_cons] at hd; exact hd
      have hone : ∀ m', m' ∈ messagesFor s (dealerOut (Dealer.step w l.sys.dealer (.receive p m wo rnd)).2) →
          (Dealer.step w l.sys.dealer (.receive p m wo rnd)).2 = .ok (.msg m' s) :=
        fun m' hm' => dealer_msg (e := ⟨.receive p m wo rnd, _⟩) (mem_messagesFor.1 hm')
      have hsp : ∀ pre post n d a k bin, messagesFor s (dealerOut (Dealer.step w l.sys.dealer (.receive p m wo rnd)).2) =
          pre ++ .invocation n g d a k bin :: post → openedR F g (l.inbox s ++ pre) := by
        intro pre post n d a k bin he
        have hres := hone (.invocation n g d a k bin) (by rw [he]; simp)
        have hpre : pre = [] := by
          rw [hres] at he
          simp only [dealerOut, messagesFor_one, if_true] at he
          cases pre with
          | nil => rfl
          | cons x pre => injection he with e1 e2; simp at e2
        subst hpre
        rw [List.append_nil]
        obtain ⟨s', m', wo', rnd', e1, -, e2⟩ := dealer_answer hres
        injection e1 with e1 e3 e4 e5
        subst e1 e3 e4 e5
        obtain ⟨r, o, u, a0, k0, bin0, rfl⟩ := e2 _ _ _ _ _ _ rfl
        obtain ⟨pr, ⟨e, he', hreg⟩, -⟩ := Dealer.C54_registered_partial hh.2 hlt _ _ _ _ _ _ _ _ _ _ _ _ _ _ _ _ hres
        have htp : Dealer.Tame pr l.sys.dh := by
          obtain ⟨q, o', wo', rnd', q', s'', rfl⟩ := hreg
          exact ht' _ _ _ (hF' _ (hS.dh _ he' _ _ _ _ rfl))
        exact i1 pr (invoked_holds hh.2 hlt htp hres ⟨e, he', s, hreg⟩)
      simp only [Log.inbox] at i1 i2 hsp ⊢
      rw [← List.append_assoc]
      refine ⟨fun t h => ?_, fun pre post n d a k bin => invocation_split i2 hsp⟩
      rcases holds_before h with ⟨hold, hnu⟩ | ⟨q, o, wo', rnd', q', s', hop, hr⟩
      · refine (i1 t hold).append fun q hq' hqi => ?_
        have hres := hone _ hq'
        rcases dealer_caused hx hlt s p m wo rnd with e | ⟨e', e, -, hcz⟩
        · rw [e] at hq'; cases hq'
        · rw [e] at hq'
          cases List.mem_singleton.1 hq'
          obtain ⟨rfl, g', rfl⟩ := hcz
          have hgi := hq q g' g (hF' _ (hS.up _ _ (by rw [h1]; exact .head _))) hqi
          subst hgi
          exact hnu q wo rnd _ rfl hres
      · injection hop with e1 e3 e4 e5
        subst e1 e3
        have := dealer_answer hr
        obtain ⟨s'', m', _, _, e1, e2, -⟩ := this
        injection e1 with e1 e3 e4 e5
        subst e1 e3
        obtain ⟨rfl, _⟩ := e2 _ _ rfl
        rw [hr]
        exact ⟨l.got p ++ l.sys.down p, q', [], by simp [dealerOut, messagesFor], by simp⟩

/-- **C114** The same for shared registrations, as long as nobody registers a procedure of the client twice or unregisters one that others still hold. -/
theorem C114_shared_partial {l : Log} (h : Log.Reach w l) (hb : l.sys.bh.length ≤ 2 ^ 53) (hd : l.sys.dh.length ≤ 2 ^ 53) (s : Nat)
    (hq : ∀ q i j, .unregister q i ∈ l.sys.sent s → .unregister q j ∈ l.sys.sent s → i = j)
    (ht : ∀ r o p, .register r o p ∈ l.sys.sent s → Dealer.Tame p l.sys.dh)
    (pre post : List Msg) (g n : Nat) (d : GoMap) (a : GoSlice) (k : GoMap) (bin : Bin) (he : l.inbox s = pre ++ .invocation n g d a k bin :: post) :
    ∃ earlier r between, pre = earlier ++ .registered r g :: between ∧ ∀ q, .unregistered q ∈ between → .unregister q g ∉ l.sys.sent s :=
  (quietT h hb hd (l.sys.sent s) s g (fun _ h => h) hq ht).2 pre post n d a k bin he

/-- Clients 2 and 3 share "p"; 1 calls twice; 2 leaves; 1 calls; 3 unregisters. -/
def sharedFair : List Action :=
  three ++ does 2 (registerFirst 1) ++ does 3 (registerFirst 1) ++ does 1 (.call 7 none (str "p") none none Bin.none) ++ [.leave 2 [] []] ++
  does 1 (.call 8 none (str "p") none none Bin.none) ++ does 3 (.unregister 2 1)

example : ∃ l, Log.Reach Dealer.noWild l ∧ l.sys.bh.length ≤ 2 ^ 53 ∧ l.sys.dh.length ≤ 2 ^ 53 ∧
    (∀ r o p, .register r o p ∈ l.sys.sent 3 → Dealer.Tame p l.sys.dh) ∧
    (∃ n d, l.inbox 2 = [.registered 1 1, .invocation n 1 d none none Bin.none]) ∧
    ∃ n d, l.inbox 3 = [.registered 1 1, .invocation n 1 d none none Bin.none, .unregistered 2] := by
  refine ⟨logged sharedFair, reach_logged _, by decide +kernel, by decide +kernel, ?_, ⟨_, _, rfl⟩, ⟨_, _, rfl⟩⟩
  have : (logged sharedFair).sys.sent 3 = [.unregister 2 1, registerFirst 1] := rfl
  rw [this]
  intro r o p h
  simp [registerFirst] at h
  obtain ⟨-, -, rfl⟩ := h
  exact ⟨fun _ => ⟨⟨1, str "first", [], [3]⟩, by decide +kernel, rfl, rfl⟩, trivial, trivial, trivial, fun _ => by decide +kernel, fun _ => by decide +kernel, trivial, trivial,
    trivial, trivial⟩

end Wamp.System
