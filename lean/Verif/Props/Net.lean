import Verif.Lemmas.Net
import Verif.Props.Cbor
import Verif.Props.MsgPack
import Verif.Props.Json
/-!
# C103, C104: a router and its clients over byte streams

Every session uses JSON, CBOR or MsgPack; bytes arrive in pieces of any size.
-/
namespace Wamp.Net
open Wamp Wamp.System Wamp.Spec Wamp.Session

/-- The serializer of a session, with what its library leaves open: how floats are formatted, in which order maps are written. -/
inductive Kind where
  | json
  | cbor (order : List (Str × Str) → List (Str × Str)) (h : ∀ l, (order l).Perm l)
  | msgpack (order : List (Str × Str) → List (Str × Str)) (h : ∀ l, (order l).Perm l)

/-- The serializer. -/
def Kind.codec : Kind → Codec
  | .json => Json.codec
  | .cbor o _ => Cbor.codec o
  | .msgpack o _ => MsgPack.codec o

/-- Messages within its limits (the same as in C95, C96 and C97): no binary payload, at most 2^24 - 1 bytes. -/
def Kind.Fit (k : Kind) (m : Msg) : Prop :=
  Transmissible m ∧ (∀ b, k.codec.serialize m = .ok b → b.length < 2 ^ 24) ∧
  match k with
  | .json => Json.Fits m.marshal ∧ ∀ n ∈ ids m, n ≤ 2 ^ 53
  | .cbor .. => Cbor.Fits m.marshal
  | .msgpack .. => MsgPack.Fits m.marshal

/-- What it does to values. -/
def Kind.norm : Kind → Val → Val
  | .json => jsonWire
  | .cbor .. => cborWire
  | .msgpack .. => msgpackWire

theorem Kind.carried (k : Kind) : Carried k.codec k.norm k.Fit := by
  cases k with
  | json =>
    exact ⟨keepsFlags_json, fun m h => RawSocket.Carries.survives (ok := Json.Fits)
      ⟨Json.C97_faithful, h.2.2.1, h.1, .inl ⟨rfl, h.2.2.2⟩⟩ h.2.1⟩
  | cbor o ho =>
    exact ⟨keepsFlags_cbor, fun m h => RawSocket.Carries.survives (ok := Cbor.Fits)
      ⟨Cbor.C95_faithful o ho, h.2.2, h.1, .inr (.inl rfl)⟩ h.2.1⟩
  | msgpack o ho =>
    exact ⟨keepsFlags_msgpack, fun m h => RawSocket.Carries.survives (ok := MsgPack.Fits)
      ⟨MsgPack.C96_faithful o ho, h.2.2, h.1, .inr (.inr rfl)⟩ h.2.1⟩

/-- Every state of router and clients in which session `s` uses serializer `k s`. -/
abbrev Run (w : Str → Str → Bool) (k : Nat → Kind) (n : Net) : Prop :=
  Reach w (fun s => (k s).codec) (fun s => (k s).Fit) n

variable {w : Str → Str → Bool} {k : Nat → Kind}

theorem run_sim {n : Net} (h : Run w k n) : ∃ x, System.Reach w x ∧ Sim (fun s => (k s).codec) (fun s => (k s).norm) (fun s => (k s).Fit) n x :=
  reach_sim (fun s => (k s).carried) h

/-- **C103** However the bytes of a client arrive at the router: a complete frame holds a message the client sent, and the router's
serializer for that session reads it, with the same IDs, URIs, options, args and kwargs up to the format's widening of numbers. -/
theorem C103_up {n : Net} (h : Run w k n) (s : Nat) (p rest : Str) (hr : readFrame (n.upBuf s) = some (p, rest)) :
    ∃ m ∈ n.core.sent s, (k s).codec.deserialize p = .ok (received (k s).norm m) := by
  obtain ⟨x, _, hs⟩ := run_sim h
  obtain ⟨us, -, g2, g3⟩ := hs.up s
  obtain ⟨m, us', rfl, -, h2, -⟩ := Sim.read (c := fun s => (k s).codec) (norm := fun s => (k s).norm) (Fit := fun s => (k s).Fit) (k s).carried g3 (fun m hm => (g2 m hm).1) hr
  exact ⟨m, (g2 m (.head _)).2, h2⟩

/-- The message at the message level that a frame holds. -/
theorem next_frame {n : Net} (h : Run w k n) (s : Nat) (p rest : Str) (hr : readFrame (n.downBuf s) = some (p, rest)) :
    ∃ x m l, System.Reach w x ∧ Sim (fun s => (k s).codec) (fun s => (k s).norm) (fun s => (k s).Fit) n x ∧ x.down s = m :: l ∧
      (k s).codec.deserialize p = .ok (received (k s).norm m) := by
  obtain ⟨x, hx, hs⟩ := run_sim h
  obtain ⟨g2, g3⟩ := hs.down s
  obtain ⟨m, us', e, -, h2, -⟩ := Sim.read (c := fun s => (k s).codec) (norm := fun s => (k s).norm) (Fit := fun s => (k s).Fit) (k s).carried g3 g2 hr
  exact ⟨x, m, us', hx, hs, e, h2⟩

/-- **C103** However the bytes from the router arrive at a client: its serializer reads a complete frame, and gets one of the messages
a broker or a dealer sends. -/
theorem C103_down {n : Net} (h : Run w k n) (s : Nat) (p rest : Str) (hr : readFrame (n.downBuf s) = some (p, rest)) (hf : Fresh n.core s) :
    ∃ m, (k s).codec.deserialize p = .ok m ∧ (fromBroker m ∨ fromDealer m) := by
  obtain ⟨x, m, l, hx, hs, e, hd⟩ := next_frame h s p rest hr
  refine ⟨_, hd, ?_⟩
  have hf' : Fresh x s := by
    unfold Fresh at hf ⊢
    rw [hs.sent, List.filterMap_map]
    have : (request ∘ received (k s).norm) = request := funext fun m => request_received _ m
    rwa [this]
  have := (reach_ai hx s hf').q.fr m (by rw [e]; exact .head _)
  cases m <;> exact this

theorem fresh_sim {n : Net} {x : Sys} (hs : Sim (fun s => (k s).codec) (fun s => (k s).norm) (fun s => (k s).Fit) n x) {s : Nat}
    (hf : Fresh n.core s) : Fresh x s := by
  unfold Fresh at hf ⊢
  rw [hs.sent, List.filterMap_map]
  have : (request ∘ received (k s).norm) = request := funext fun m => request_received _ m
  rwa [this]

/-- **C103** Whatever the interleaving of actions and arriving bytes, and whatever the serializers of the other sessions: an EVENT,
SUBSCRIBED, UNSUBSCRIBED or PUBLISHED that a client reads from its connection is accepted by its `Session`, if that client never uses a
request ID twice for requests of the same kind. -/
theorem C103_broker_accepted {n : Net} (h : Run w k n) (hlen : n.core.bh.length ≤ 2 ^ 53) (s : Nat) (hf : Fresh n.core s) (p rest : Str) (m : Msg)
    (hr : readFrame (n.downBuf s) = some (p, rest)) (hm : (k s).codec.deserialize p = .ok m)
    (hk : (∃ i p d a k, m = .event i p d a k) ∨ (∃ r i, m = .subscribed r i) ∨ (∃ r, m = .unsubscribed r) ∨ ∃ r p, m = .published r p) :
    Accepts (n.core.client s) m := by
  obtain ⟨x, m', l, hx, hs, e, hd⟩ := next_frame h s p rest hr
  rw [hd] at hm
  cases hm
  rw [accepts_received (k s).carried.flags, ← hs.client]
  refine C89_broker_accepted hx (by rwa [hs.bh]) s (fresh_sim hs hf) m' l e ?_
  cases m' <;> simp [received] at hk ⊢

/-- **C104** what holds: a RESULT, an ERROR or a REGISTERED that a client reads from its connection is accepted, if that client never uses a
request ID twice for requests of the same kind. -/
theorem C104_answers_accepted_partial {n : Net} (h : Run w k n) (s : Nat) (hf : Fresh n.core s) (p rest : Str) (m : Msg)
    (hr : readFrame (n.downBuf s) = some (p, rest)) (hm : (k s).codec.deserialize p = .ok m)
    (hk : (∃ r d a k bin, m = .result r d a k bin) ∨ (∃ r g, m = .registered r g) ∨ ∃ t r d u a k, m = .error t r d u a k) :
    Accepts (n.core.client s) m := by
  obtain ⟨x, m', l, hx, hs, e, hd⟩ := next_frame h s p rest hr
  rw [hd] at hm
  cases hm
  rw [accepts_received (k s).carried.flags, ← hs.client]
  refine C90_answers_accepted_partial hx s (fresh_sim hs hf) m' l e ?_
  cases m' <;> simp [received] at hk ⊢

/-- **C104** what holds when nobody registers a procedure twice or unregisters a procedure that others still hold: an INVOCATION or
UNREGISTERED that a client reads from its connection is accepted. -/
theorem C104_tame_partial {n : Net} (h : Run w k n) (hlen : n.core.dh.length ≤ 2 ^ 53) (s : Nat) (hf : Fresh n.core s)
    (ht : ∀ p, Dealer.Tame p n.core.dh) (p rest : Str) (m : Msg)
    (hr : readFrame (n.downBuf s) = some (p, rest)) (hm : (k s).codec.deserialize p = .ok m)
    (hk : (∃ i g d a k bin, m = .invocation i g d a k bin) ∨ ∃ r, m = .unregistered r) :
    Accepts (n.core.client s) m := by
  obtain ⟨x, m', l, hx, hs, e, hd⟩ := next_frame h s p rest hr
  rw [hd] at hm
  cases hm
  rw [accepts_received (k s).carried.flags, ← hs.client]
  refine C91_tame_partial hx (by rwa [hs.dh]) s (fresh_sim hs hf) (by rwa [hs.dh]) m' l e ?_
  cases m' <;> simp [received] at hk ⊢

/-- **C104** An INVOCATION is accepted if its recipient never sent an UNREGISTER for that registration. -/
theorem C104_invocation_partial {n : Net} (h : Run w k n) (hlen : n.core.dh.length ≤ 2 ^ 53) (s : Nat) (hf : Fresh n.core s)
    (p rest : Str) (i g : Nat) (d : GoMap) (a : GoSlice) (kw : GoMap) (bin : Bin)
    (hr : readFrame (n.downBuf s) = some (p, rest)) (hm : (k s).codec.deserialize p = .ok (.invocation i g d a kw bin))
    (hn : ∀ r, .unregister r g ∉ n.core.sent s) : Accepts (n.core.client s) (.invocation i g d a kw bin) := by
  obtain ⟨x, m', l, hx, hs, e, hd⟩ := next_frame h s p rest hr
  rw [hd] at hm
  have := (C91_simple_partial hx (by rwa [hs.dh]) s (fresh_sim hs hf) m' l e).1
  cases m' <;> simp only [received] at hm <;> try (cases hm; done)
  rename_i i' g' d' a' kw' bin'
  injection hm with hm
  injection hm with e1 e2 e3 e4 e5 e6
  subst e1 e2
  have h2 := this _ _ _ _ _ _ rfl (by
    intro r hr
    rw [hs.sent] at hr
    obtain ⟨m, hm, he⟩ := List.mem_map.1 hr
    cases m <;> simp only [received] at he <;> try (cases he; done)
    cases he
    exact hn _ hm)
  rw [hs.client] at h2
  rw [← e3, ← e4, ← e5, ← e6]
  exact (accepts_received (k s).carried.flags _ _).2 h2

/-! ### Cases -/

/-- Whether the message is within the limits. -/
def Kind.fits (k : Kind) (m : Msg) : Bool :=
  (match m with
   | .welcome _ d => d.isSome | .challenge _ e => e.isSome | .abort d _ a k => d.isSome && (k.isNone || a.isSome)
   | .goodbye d _ => d.isSome | .error _ _ d _ _ _ => d.isSome | .publish _ o _ _ _ => o.isSome | .subscribe _ o _ => o.isSome
   | .event _ _ d _ _ => d.isSome | .call _ o _ _ _ b => o.isSome && decide (b = Bin.none)
   | .cancel _ o => o.isSome | .register _ o _ => o.isSome | .interrupt _ o => o.isSome
   | .result _ o _ _ b => o.isSome && decide (b = Bin.none)
   | .invocation _ _ o _ _ b => o.isSome && decide (b = Bin.none)
   | .yield _ o _ _ b => o.isSome && decide (b = Bin.none)
   | _ => true) &&
  (match k.codec.serialize m with | .ok b => decide (b.length < 2 ^ 24) | _ => true) &&
  match k with
  | .json => Json.fits 10000 (.arr m.marshal) && (ids m).all (· ≤ 2 ^ 53)
  | .cbor .. => Cbor.fits 32 (.arr m.marshal)
  | .msgpack .. => MsgPack.fits (.arr m.marshal)

theorem Kind.fit_of_fits {k : Kind} {m : Msg} (h : k.fits m = true) : k.Fit m := by
  simp only [Kind.fits, Bool.and_eq_true] at h
  obtain ⟨⟨h1, h2⟩, h3⟩ := h
  refine ⟨?_, ?_, ?_⟩
  · cases m <;> simp [Transmissible, Option.isSome_iff_ne_none] at h1 ⊢ <;> first | exact h1 | skip
    refine ⟨h1.1, fun hk => ?_⟩
    rcases h1.2 with h | h
    · exact absurd h hk
    · exact h
  · intro b hb
    rw [hb] at h2
    exact of_decide_eq_true h2
  · cases k with
    | json =>
      simp only [Bool.and_eq_true, List.all_eq_true, decide_eq_true_eq] at h3
      exact h3
    | _ => exact h3

/-- What the router sends after handling a message. -/
def outs (w : Str → Str → Bool) (x : Sys) (s : Nat) (m : Msg) : List (Nat × Msg) :=
  match m with
  | .publish q o t a k => brokerOut (Broker.step w x.broker (.publish s q o t a k [] [])).2
  | .subscribe .. | .unsubscribe .. => brokerOut (Broker.step w x.broker (.receive s m)).2
  | .call .. | .yield .. | .register .. | .unregister .. | .error .. => dealerOut (Dealer.step w x.dealer (.receive s m [] 0)).2
  | _ => []

theorem handle_outs {x y : Sys} {s : Nat} {m : Msg} (h : x.handle w s m [] [] 0 = some y) (s' : Nat) :
    y.down s' = x.down s' ++ messagesFor s' (outs w x s m) := by
  have dealer : ∀ op, ((x.onDealer w op).map fun v => v.post (dealerOut (Dealer.step w x.dealer op).2)) = some y →
      y.down s' = x.down s' ++ messagesFor s' (dealerOut (Dealer.step w x.dealer op).2) := by
    intro op e
    obtain ⟨v, e1, e2⟩ := Option.map_eq_some_iff.1 e
    obtain ⟨g1, -⟩ := onDealer_links (x := x) op rfl rfl e1
    subst e2
    rw [g1]; rfl
  cases m <;> first | exact dealer _ h | (cases h; rfl) | (cases h; simp [outs, messagesFor])

theorem written_of_fit (k : Kind) (l : List Msg) (h : ∀ m ∈ l, k.Fit m) : Written k.codec l ((RawSocket.writeMessages k.codec l).getD []) := by
  have : ∃ s, RawSocket.writeMessages k.codec l = some s ∧ Written k.codec l s := by
    induction l with
    | nil => exact ⟨[], rfl, .nil⟩
    | cons m l ih =>
      obtain ⟨s, h1, h2⟩ := ih fun m hm => h m (.tail _ hm)
      obtain ⟨b, h3, -, -⟩ := k.carried.survives m (h m (.head _))
      exact ⟨_, by rw [RawSocket.writeMessages, h3, h1]; rfl, .cons h3 h2⟩
  obtain ⟨s, h1, h2⟩ := this
  rw [h1]; exact h2

/-- Something to do: join, leave or disclose; send a message; let the router take a frame; let a client take a frame; let some bytes arrive. -/
inductive Cmd where
  | join (d : SessionDetails)
  | leave (s : Nat)
  | send (s : Nat) (m : Msg)
  | up (s : Nat) (bytes : Nat)
  | route (s : Nat)
  | down (s : Nat) (bytes : Nat)
  | deliver (s : Nat)

/-- Do it, if it is possible and all messages are within the limits. -/
def exec (w : Str → Str → Bool) (k : Nat → Kind) (n : Net) : Cmd → Option Net
  | .join d => (n.core.act w (.join d)).map fun y => { n with core := y }
  | .leave s => (n.core.act w (.leave s [] [])).map fun y => { n with core := y }
  | .send s m =>
    match (k s).codec.serialize m with
    | .ok b =>
      if (k s).fits m then
        (n.core.act w (.send s b m)).map fun y => { n with core := Sys.emptied y, upWay := upd n.upWay s (n.upWay s ++ frame b) }
      else none
    | _ => none
  | .up s j => some { n with upWay := upd n.upWay s ((n.upWay s).drop j), upBuf := upd n.upBuf s (n.upBuf s ++ (n.upWay s).take j) }
  | .down s j =>
    some { n with downWay := upd n.downWay s ((n.downWay s).drop j), downBuf := upd n.downBuf s (n.downBuf s ++ (n.downWay s).take j) }
  | .route s =>
    match readFrame (n.upBuf s) with
    | none => none
    | some (p, rest) =>
      match (k s).codec.deserialize p with
      | .ok m =>
        if (outs w n.core s m).all fun q => (k q.1).fits q.2 then
          (Sys.act w { n.core with up := upd (fun _ => []) s [m], down := fun _ => [] } (.route s [] [] 0)).map fun y =>
            { n with core := Sys.emptied y, upBuf := upd n.upBuf s rest,
                     downWay := fun s' => n.downWay s' ++ (RawSocket.writeMessages (k s').codec (y.down s')).getD [] }
        else none
      | _ => none
  | .deliver s =>
    match readFrame (n.downBuf s) with
    | none => none
    | some (p, rest) =>
      match (k s).codec.deserialize p with
      | .ok m => (Sys.act w { n.core with up := fun _ => [], down := upd (fun _ => []) s [m] } (.deliver s)).map fun y =>
          { n with core := Sys.emptied y, downBuf := upd n.downBuf s rest, got := upd n.got s (n.got s ++ [m]) }
      | _ => none

theorem exec_step {n n' : Net} (h : Run w k n) (cmd : Cmd) (hc : exec w k n cmd = some n') :
    Step w (fun s => (k s).codec) (fun s => (k s).Fit) n n' := by
  have h0 : n.core.up = (fun _ => []) ∧ n.core.down = fun _ => [] := by
    obtain ⟨x, _, hs⟩ := run_sim h
    exact ⟨hs.up0, hs.down0⟩
  cases cmd with
  | join d =>
    obtain ⟨y, e1, e2⟩ := Option.map_eq_some_iff.1 hc
    subst e2
    exact (.admin _ (.inl ⟨d, rfl⟩) e1)
  | leave s =>
    obtain ⟨y, e1, e2⟩ := Option.map_eq_some_iff.1 hc
    subst e2
    exact (.admin _ (.inr (.inl ⟨s, _, _, rfl⟩)) e1)
  | send s m =>
    simp only [exec] at hc
    split at hc
    · rename_i b hb
      split at hc
      · rename_i hf
        obtain ⟨y, e1, e2⟩ := Option.map_eq_some_iff.1 hc
        subst e2
        exact (.send s m b hb (Kind.fit_of_fits hf) e1)
      · cases hc
    · cases hc
  | up s j =>
    cases hc
    exact (.upArrive s ((n.upWay s).take j) ((n.upWay s).drop j) (List.take_append_drop ..).symm)
  | down s j =>
    cases hc
    exact (.downArrive s ((n.downWay s).take j) ((n.downWay s).drop j) (List.take_append_drop ..).symm)
  | route s =>
    simp only [exec] at hc
    split at hc
    · cases hc
    rename_i p rest hr
    split at hc
    · rename_i m hm
      split at hc
      · rename_i hf
        obtain ⟨y, e1, e2⟩ := Option.map_eq_some_iff.1 hc
        subst e2
        have hfit : ∀ s' m', m' ∈ y.down s' → (k s').Fit m' := by
          intro s' m' hm'
          have e3 := e1
          simp only [Sys.act, upd, if_true] at e3
          rw [handle_outs e3 s'] at hm'
          simp only [List.nil_append, messagesFor, List.mem_map, List.mem_filter] at hm'
          obtain ⟨q, ⟨hq, e⟩, e'⟩ := hm'
          have := List.all_eq_true.1 hf q (by
            revert hq
            cases m <;> exact id)
          simp only [decide_eq_true_eq] at e
          rw [e, e'] at this
          exact Kind.fit_of_fits this
        refine (.route s [] [] 0 p rest m (fun s' => (RawSocket.writeMessages (k s').codec (y.down s')).getD []) hr hm ?_ hfit ?_)
        · simp only [h0.1, h0.2]
          exact e1
        · intro s'
          exact written_of_fit (k s') _ (hfit s')
      · cases hc
    · cases hc
  | deliver s =>
    simp only [exec] at hc
    split at hc
    · cases hc
    rename_i p rest hr
    split at hc
    · rename_i m hm
      obtain ⟨y, e1, e2⟩ := Option.map_eq_some_iff.1 hc
      subst e2
      refine (.deliver s p rest m hr hm ?_)
      simp only [h0.1, h0.2]
      exact e1
    · cases hc

theorem exec_run {n n' : Net} (h : Run w k n) (cmd : Cmd) (hc : exec w k n cmd = some n') : Run w k n' := h.step (exec_step h cmd hc)

/-- Commands one after the other. -/
def execAll (w : Str → Str → Bool) (k : Nat → Kind) : Net → List Cmd → Option Net
  | n, [] => some n
  | n, c :: cs => (exec w k n c).bind fun n' => execAll w k n' cs

theorem execAll_run {n n' : Net} (h : Run w k n) (cs : List Cmd) (hc : execAll w k n cs = some n') : Run w k n' := by
  induction cs generalizing n with
  | nil => cases hc; exact h
  | cons c cs ih =>
    obtain ⟨z, h1, h2⟩ := Option.bind_eq_some_iff.1 hc
    exact ih (exec_run h c h1) h2

/-- Session 1 uses CBOR and writes maps backwards, the others use MsgPack. -/
def mixed : Nat → Kind
  | 1 => .cbor List.reverse List.reverse_perm
  | _ => .msgpack id fun _ => .refl _

/-- Client `s` sends, everything arrives, the router takes it. -/
def sends (s : Nat) (m : Msg) : List Cmd := [.send s m, .up s 1000, .route s]

/-- The state after these commands. -/
def after (cs : List Cmd) : Net := (execAll Dealer.noWild mixed Net.new cs).getD Net.new

theorem run_after (cs : List Cmd) : Run Dealer.noWild mixed (after cs) := by
  unfold after
  cases h : execAll Dealer.noWild mixed Net.new cs with
  | none => exact .new
  | some y => exact execAll_run .new cs h

/-- What the client reads next. -/
def readNext (n : Net) (s : Nat) : Option Msg :=
  (readFrame (n.downBuf s)).bind fun q => match (mixed s).codec.deserialize q.1 with | .ok m => some m | _ => none

/-- Client 1 subscribes, client 2 publishes a number and a text; the EVENT's bytes arrive in two pieces. -/
def story : List Cmd :=
  [.join (Dealer.who 1), .join (Dealer.who 2)] ++ sends 1 (newSubscribe 1 none (str "t")) ++ [.down 1 100, .deliver 1] ++
  sends 2 (newPublish 7 none (str "t") (some [.int .int 300, .str (str "hello")]) none) ++ [.down 1 5]

/-- Its kind and IDs, its list of args in CBOR, and whether the client accepts it. -/
def look (n : Net) (s : Nat) : Option (List Nat × Str × Bool) :=
  (readNext n s).map fun m =>
    ((match m with
      | .event .. => 36 | .subscribed .. => 33 | .result .. => 50 | .invocation .. => 68 | .registered .. => 65 | .unregistered .. => 67 | _ => 0) :: ids m,
     (match m with
      | .event _ _ _ (some a) _ | .result _ _ (some a) _ _ | .invocation _ _ _ (some a) _ _ => ((Cbor.codec id).enc a).getD []
      | _ => []),
     match ((recv m).run (n.core.client s)).2 with | .ok _ => true | _ => false)

theorem look_some {n : Net} {s : Nat} {l : List Nat} {a : Str} {b : Bool} (h : look n s = some (l, a, b)) :
    ∃ p rest m, readFrame (n.downBuf s) = some (p, rest) ∧ (mixed s).codec.deserialize p = .ok m ∧
      (l.head? = some 36 → ∃ i p d a k, m = .event i p d a k) ∧ (l.head? = some 50 → ∃ r d a k bin, m = .result r d a k bin) ∧
      (l.head? = some 68 → ∃ i g d a k bin, m = .invocation i g d a k bin) := by
  obtain ⟨m, h1, h2⟩ := Option.map_eq_some_iff.1 h
  obtain ⟨⟨p, rest⟩, h3, h4⟩ := Option.bind_eq_some_iff.1 h1
  have h5 : (mixed s).codec.deserialize p = .ok m := by
    simp only at h4
    split at h4
    · rename_i m' e; cases h4; exact e
    · cases h4
  refine ⟨p, rest, m, h3, h5, ?_⟩
  injection h2 with h2
  subst h2
  cases m <;> simp

/-- The EVENT is not there before all of its bytes have arrived; then it is read, with the numbers as CBOR reads them, and accepted. -/
example : look (after story) 1 = none ∧
    look (after (story ++ [.down 1 100])) 1 = some ([36, 1, 2], [0x82, 0x19, 1, 44, 0x65, 104, 101, 108, 108, 111], true) := by
  decide +kernel

example : ∃ n p rest m, Run Dealer.noWild mixed n ∧ n.core.bh.length ≤ 2 ^ 53 ∧ Fresh n.core 1 ∧ readFrame (n.downBuf 1) = some (p, rest) ∧
    (mixed 1).codec.deserialize p = .ok m ∧ ∃ i p d a k, m = .event i p d a k := by
  obtain ⟨p, rest, m, h1, h2, h3, -⟩ := look_some (n := after (story ++ [.down 1 100])) (s := 1) (l := [36, 1, 2])
    (a := [0x82, 0x19, 1, 44, 0x65, 104, 101, 108, 108, 111]) (b := true) (by decide +kernel)
  exact ⟨_, p, rest, m, run_after _, by decide +kernel, by unfold Fresh; decide +kernel, h1, h2, h3 rfl⟩

/-- Client 2 registers a procedure, client 1 calls it. -/
def calling : List Cmd :=
  [.join (Dealer.who 1), .join (Dealer.who 2)] ++ sends 2 (newRegister 1 none (str "p")) ++ [.down 2 100, .deliver 2] ++
  sends 1 (newCall 7 none (str "p") (some [.int .int 300]) none) ++ [.down 2 100]

/-- Client 2 answers. -/
def answered : List Cmd := calling ++ [.deliver 2] ++ sends 2 (newYield 2 none (some [.int .int 301]) none) ++ [.down 1 100]

/-- The number goes out as CBOR, and is then an `uint64` in MsgPack. -/
example : look (after calling) 2 = some ([68, 2, 1], [0x81, 0x19, 1, 44], true) ∧
    look (after answered) 1 = some ([50, 7], [0x81, 0x19, 1, 45], true) := by decide +kernel

example : ∃ n p rest m, Run Dealer.noWild mixed n ∧ Fresh n.core 1 ∧ readFrame (n.downBuf 1) = some (p, rest) ∧
    (mixed 1).codec.deserialize p = .ok m ∧ ∃ r d a k bin, m = .result r d a k bin := by
  obtain ⟨p, rest, m, h1, h2, -, h3, -⟩ := look_some (n := after answered) (s := 1) (l := [50, 7])
    (a := [0x81, 0x19, 1, 45]) (b := true) (by decide +kernel)
  exact ⟨_, p, rest, m, run_after _, by unfold Fresh; decide +kernel, h1, h2, h3 rfl⟩

end Wamp.Net
