import Verif.Lemmas.SystemRegs
/-!
# C89–C91: a router's messages and its clients' `Session`s
-/
namespace Wamp.System
open Wamp.Session

variable {w : Str → Str → Bool}

theorem reach_run {x y : Sys} (hx : Reach w x) (as : List Action) (h : x.run w as = some y) : Reach w y := by
  induction as generalizing x with
  | nil => cases h; exact hx
  | cons a as ih =>
    obtain ⟨z, h1, h2⟩ := Option.bind_eq_some_iff.1 h
    exact ih (hx.act a h1) h2

/-- The state after these actions. -/
def done (as : List Action) : Sys := (Sys.new.run Dealer.noWild as).getD Sys.new

theorem reach_done (as : List Action) : Reach Dealer.noWild (done as) := by
  unfold done
  cases h : Sys.new.run Dealer.noWild as with
  | none => exact .new
  | some y => exact reach_run .new as h

/-- Client `s` sends `m` and the router handles it. -/
def does (s : Nat) (m : Msg) : List Action := [.send s [] m, .route s [] [] 0]
/-- Clients 1, 2 and 3 join. -/
def three : List Action := [.join (Dealer.who 1), .join (Dealer.who 2), .join (Dealer.who 3)]

/-- The message to be delivered next, as its code and first number, and whether the client accepts it. -/
def nextFor (x : Sys) (s : Nat) : Option (Nat × Nat × Bool) :=
  match x.down s with
  | [] => none
  | m :: _ =>
    let ok := match ((recv m).run (x.client s)).2 with | .ok _ => true | _ => false
    match m with
    | .subscribed r _ => some (33, r, ok)
    | .unsubscribed r => some (35, r, ok)
    | .published r _ => some (17, r, ok)
    | .event i _ _ _ _ => some (36, i, ok)
    | .result r _ _ _ _ => some (50, r, ok)
    | .registered r _ => some (65, r, ok)
    | .unregistered r => some (67, r, ok)
    | .invocation i _ _ _ _ _ => some (68, i, ok)
    | .error t _ _ _ _ _ => some (8, t, ok)
    | _ => none

/-! ### C89 -/

/-- **C89** Whatever the interleaving, an EVENT, SUBSCRIBED, UNSUBSCRIBED or PUBLISHED that reaches a client is accepted by its
`Session`, if that client never uses a request ID twice for requests of the same kind. -/
theorem C89_broker_accepted {x : Sys} (h : Reach w x) (hlen : x.bh.length ≤ 2 ^ 53) (s : Nat) (hf : Fresh x s) (m : Msg) (rest : List Msg)
    (hd : x.down s = m :: rest) (hm : (∃ i p d a k, m = .event i p d a k) ∨ (∃ r i, m = .subscribed r i) ∨ (∃ r, m = .unsubscribed r) ∨ ∃ r p, m = .published r p) :
    Accepts (x.client s) m := by
  have := (reach_bi h s hlen hf).acc
  rw [hd] at this
  refine this.1 ?_
  rcases hm with ⟨_, _, _, _, _, rfl⟩ | ⟨_, _, rfl⟩ | ⟨_, rfl⟩ | ⟨_, _, rfl⟩ <;> trivial

/-- An EVENT overtakes the client's UNSUBSCRIBE, and is accepted. -/
def overtaken : List Action :=
  three ++ does 1 (.subscribe 1 none (str "t")) ++ [.deliver 1] ++ [.send 1 [] (.unsubscribe 2 1)] ++ does 2 (.publish 1 none (str "t") none none)

example : ∃ x i d a k rest, Reach Dealer.noWild x ∧ x.bh.length ≤ 2 ^ 53 ∧ Fresh x 1 ∧ x.down 1 = .event 1 i d a k :: rest ∧
    x.up 1 = [.unsubscribe 2 1] := by
  refine ⟨done overtaken, _, _, _, _, _, reach_done _, ?_, ?_, rfl, rfl⟩
  · decide +kernel
  · unfold Fresh; decide +kernel

/-- Then UNSUBSCRIBED is next. -/
example : nextFor (done (overtaken ++ [.deliver 1, .route 1 [] [] 0])) 1 = some (35, 2, true) := by decide +kernel

/-- **C89** The condition is needed: of two PUBLISHEDs for the same request ID the client's `Session` rejects the second. -/
theorem C89_reused_id : ∃ x, Reach Dealer.noWild x ∧ nextFor x 1 = some (17, 1, false) :=
  ⟨_, reach_done (three ++ does 1 (.publish 1 (some [(str "acknowledge", .bool true)]) (str "t") none none) ++
    does 1 (.publish 1 (some [(str "acknowledge", .bool true)]) (str "t") none none) ++ [.deliver 1]), by decide +kernel⟩

/-! ### C90 -/

/-- **C90** what holds: a RESULT, an ERROR for a CALL or REGISTER, or a REGISTERED that reaches a client is accepted, if that client
never uses a request ID twice for requests of the same kind.  (Progressive calls do use one ID repeatedly.) -/
theorem C90_answers_accepted_partial {x : Sys} (h : Reach w x) (s : Nat) (hf : Fresh x s) (m : Msg) (rest : List Msg)
    (hd : x.down s = m :: rest)
    (hm : (∃ r d a k bin, m = .result r d a k bin) ∨ (∃ r g, m = .registered r g) ∨ ∃ t r d u a k, m = .error t r d u a k) :
    Accepts (x.client s) m := by
  have hA := reach_ai h s hf
  have h1 := hA.acc
  have h2 := hA.q.fr
  rw [hd] at h1 h2
  refine h1.1 ?_
  rcases hm with ⟨_, _, _, _, _, rfl⟩ | ⟨_, _, rfl⟩ | ⟨t, _, _, _, _, _, rfl⟩
  · trivial
  · trivial
  · rcases h2 _ (.head _) with h2 | h2
    · exact h2.elim
    · exact h2

/-- A client registers, another calls, and the RESULT is next. -/
def called : List Action :=
  three ++ does 2 (.register 1 none (str "p")) ++ [.deliver 2] ++ does 1 (.call 7 none (str "p") none none Bin.none) ++ [.deliver 2] ++
  does 2 (.yield 2 none none none Bin.none)

example : ∃ x d a k bin, Reach Dealer.noWild x ∧ Fresh x 1 ∧ x.down 1 = [.result 7 d a k bin] := by
  refine ⟨done called, _, _, _, _, reach_done _, ?_, rfl⟩
  unfold Fresh; decide +kernel

/-- **C90** The full statement fails: when a caller continues a progressive call under its request ID, as the protocol has it, and the
callee has by then finished, the dealer invokes the callee anew; both final RESULTs go to the caller, whose `Session` rejects the
second. -/
theorem C90_progressive_rejected : ∃ x, Reach Dealer.noWild x ∧ nextFor x 1 = some (50, 7, false) :=
  ⟨_, reach_done (three ++ does 2 (.register 1 none (str "p")) ++ [.deliver 2] ++
    does 1 (.call 7 (some [(str "progress", .bool true)]) (str "p") none none Bin.none) ++ [.deliver 2] ++
    [.send 1 [] (.call 7 none (str "p") none none Bin.none)] ++
    does 2 (.yield 2 none none none Bin.none) ++
    [.route 1 [] [] 0, .deliver 2] ++
    does 2 (.yield 3 none none none Bin.none) ++ [.deliver 1]), by decide +kernel⟩

/-! ### C91 -/

/-- **C91** what holds: an INVOCATION is accepted if its recipient never sent an UNREGISTER for that registration; an UNREGISTERED is
accepted if its UNREGISTER is the only one its recipient sent for that registration. -/
theorem C91_simple_partial {x : Sys} (h : Reach w x) (hlen : x.dh.length ≤ 2 ^ 53) (s : Nat) (hf : Fresh x s) (m : Msg) (rest : List Msg)
    (hd : x.down s = m :: rest) :
    (∀ i g d a k bin, m = .invocation i g d a k bin → (∀ r, .unregister r g ∉ x.sent s) → Accepts (x.client s) m) ∧
    (∀ r, m = .unregistered r → (∀ g r', .unregister r g ∈ x.sent s → .unregister r' g ∈ x.sent s → r' = r) → Accepts (x.client s) m) := by
  have := (reach_ra h s hlen hf).2
  rw [hd] at this
  constructor
  · rintro i g d a k bin rfl hn
    exact this.1 hn
  · rintro r rfl hn
    exact this.1 hn

/-- The registrations in these are shared. -/
def shared : List Action :=
  three ++ does 2 (.register 1 (some [(str "invoke", .str (str "roundrobin"))]) (str "p")) ++ [.deliver 2] ++
  does 3 (.register 1 (some [(str "invoke", .str (str "roundrobin"))]) (str "p")) ++ [.deliver 3]

example : ∃ x i d a k bin, Reach Dealer.noWild x ∧ x.dh.length ≤ 2 ^ 53 ∧ Fresh x 2 ∧ x.down 2 = [.invocation i 1 d a k bin] ∧ x.sent 2 ≠ [] ∧
    ∀ r, .unregister r 1 ∉ x.sent 2 := by
  refine ⟨done (shared ++ does 1 (.call 7 none (str "p") none none Bin.none)), _, _, _, _, _, reach_done _, ?_, ?_, rfl, ?_, ?_⟩
  · decide +kernel
  · unfold Fresh; decide +kernel
  · exact List.cons_ne_nil _ _
  · intro r hr
    have : (done (shared ++ does 1 (.call 7 none (str "p") none none Bin.none))).sent 2 =
      [.register 1 (some [(str "invoke", .str (str "roundrobin"))]) (str "p")] := rfl
    rw [this] at hr
    simp at hr

example : ∃ x, Reach Dealer.noWild x ∧ x.dh.length ≤ 2 ^ 53 ∧ Fresh x 2 ∧ x.down 2 = [.unregistered 2] ∧
    ∀ g r', .unregister 2 g ∈ x.sent 2 → .unregister r' g ∈ x.sent 2 → r' = 2 := by
  refine ⟨done (shared ++ does 2 (.unregister 2 1)), reach_done _, ?_, ?_, rfl, ?_⟩
  · decide +kernel
  · unfold Fresh; decide +kernel
  · intro g r' h1 h2
    have : (done (shared ++ does 2 (.unregister 2 1))).sent 2 =
      [.unregister 2 1, .register 1 (some [(str "invoke", .str (str "roundrobin"))]) (str "p")] := rfl
    rw [this] at h1 h2
    simp at h1 h2
    exact h2.1

/-- **C91** what holds when nobody registers a procedure twice or unregisters a procedure that others still hold: all INVOCATIONs and
UNREGISTEREDs are accepted. -/
theorem C91_tame_partial {x : Sys} (h : Reach w x) (hlen : x.dh.length ≤ 2 ^ 53) (s : Nat) (hf : Fresh x s) (ht : ∀ p, Dealer.Tame p x.dh)
    (m : Msg) (rest : List Msg) (hd : x.down s = m :: rest) (hm : (∃ i g d a k bin, m = .invocation i g d a k bin) ∨ ∃ r, m = .unregistered r) :
    Accepts (x.client s) m := by
  have := (reach_rb h s hlen hf ht).2
  rw [hd] at this
  refine this.1 ?_
  rcases hm with ⟨_, _, _, _, _, _, rfl⟩ | ⟨_, rfl⟩ <;> trivial

/-- **C91** In particular if all registrations are exclusive. -/
theorem C91_single_partial {x : Sys} (h : Reach w x) (hlen : x.dh.length ≤ 2 ^ 53) (s : Nat) (hf : Fresh x s) (hs : ∀ p, Dealer.Single p x.dh)
    (m : Msg) (rest : List Msg) (hd : x.down s = m :: rest) (hm : (∃ i g d a k bin, m = .invocation i g d a k bin) ∨ ∃ r, m = .unregistered r) :
    Accepts (x.client s) m :=
  C91_tame_partial h hlen s hf (fun p => (Dealer.hist_single (reach_hist h).2 hlen (hs p)).1) m rest hd hm

/-- A client registers; its UNREGISTER crosses an INVOCATION, which arrives after it was sent. -/
def crossing : List Action :=
  three ++ does 2 (.register 1 none (str "p")) ++ [.deliver 2] ++ [.send 2 [] (.unregister 2 1)] ++
  does 1 (.call 7 none (str "p") none none Bin.none)

example : ∃ x i d a k bin, Reach Dealer.noWild x ∧ x.dh.length ≤ 2 ^ 53 ∧ Fresh x 2 ∧ (∀ p, Dealer.Single p x.dh) ∧
    x.down 2 = [.invocation i 1 d a k bin] ∧ x.up 2 = [.unregister 2 1] := by
  refine ⟨done crossing, _, _, _, _, _, reach_done _, ?_, ?_, ?_, rfl, rfl⟩
  · decide +kernel
  · unfold Fresh; decide +kernel
  · intro p e he s q o order rnd heq
    have : ∀ e ∈ (done crossing).dh, ∀ s q o p order rnd, e.op = .receive s (.register q o p) order rnd → o = none := by
      have hd : ((done crossing).dh.map Dealer.Event.op) = [Dealer.callOf 1 7 "p", Dealer.reg 2 "p", .add (Dealer.who 3), .add (Dealer.who 2), .add (Dealer.who 1)] := rfl
      intro e he s q o p order rnd heq
      have h1 : e.op ∈ (done crossing).dh.map Dealer.Event.op := List.mem_map_of_mem he
      rw [hd, heq] at h1
      simp [Dealer.callOf, Dealer.reg, Dealer.who] at h1
      exact h1.2.1.2.1
    rw [this e he s q o p order rnd heq]
    exact .inl rfl

/-- **C91** The full statement fails for shared registrations: the dealer still invokes a client after its UNREGISTER was confirmed,
and the client's `Session` rejects that INVOCATION. -/
theorem C91_invoked_after_unregistered : ∃ x, Reach Dealer.noWild x ∧ Fresh x 2 ∧ nextFor x 2 = some (68, 2, false) :=
  ⟨_, reach_done (shared ++ does 2 (.unregister 2 1) ++ [.deliver 2] ++ does 1 (.call 7 none (str "p") none none Bin.none)),
    by unfold Fresh; decide +kernel, by decide +kernel⟩

/-- **C91** And a second UNREGISTER is confirmed by the dealer, but the confirmation rejected by the client. -/
theorem C91_unregistered_twice : ∃ x, Reach Dealer.noWild x ∧ Fresh x 2 ∧ nextFor x 2 = some (67, 3, false) :=
  ⟨_, reach_done (shared ++ does 2 (.unregister 2 1) ++ [.deliver 2] ++ does 2 (.unregister 3 1)),
    by unfold Fresh; decide +kernel, by decide +kernel⟩

end Wamp.System
