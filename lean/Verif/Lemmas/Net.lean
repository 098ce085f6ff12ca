import Verif.Spec.Net
import Verif.Props.Connection
import Verif.Props.Delivery
/-!
# Byte streams carry the messages of Spec/System
-/
namespace Wamp.Net
open Wamp Wamp.System Wamp.Spec Wamp.Session

/-! ### Frames -/

theorem frame_length (b : Str) : (frame b).length = 4 + b.length := by
  simp [frame, RawSocket.header_length]

/-- The first frame of a stream whose bytes have arrived up to some point. -/
theorem readFrame_frame {b s buf way p rest : Str} (hb : b.length < 2 ^ 24) (h : buf ++ way = frame b ++ s)
    (hr : readFrame buf = some (p, rest)) : p = b ∧ rest ++ way = s := by
  rw [readFrame] at hr
  split at hr
  · cases hr
  rename_i h4
  have h4' : 4 ≤ buf.length := by omega
  have e4 : buf.take 4 = RawSocket.sendMessageHeader ⟨0, b.length⟩ := by
    have : (buf ++ way).take 4 = RawSocket.sendMessageHeader ⟨0, b.length⟩ := by
      rw [h, frame, List.append_assoc, List.take_append_of_le_length (by simp [RawSocket.header_length]),
        List.take_of_length_le (by simp [RawSocket.header_length])]
    rwa [List.take_append_of_le_length h4'] at this
  have ed : buf.drop 4 ++ way = b ++ s := by
    have : (buf ++ way).drop 4 = b ++ s := by
      rw [h, frame, List.append_assoc, List.drop_append_of_le_length (by simp [RawSocket.header_length]),
        List.drop_of_length_le (by simp [RawSocket.header_length]), List.nil_append]
    rwa [List.drop_append_of_le_length h4'] at this
  rw [e4, (RawSocket.C04_header_roundtrip 0 b.length hb).1] at hr
  simp only [Int.toNat_natCast] at hr
  split at hr
  · cases hr
  rename_i hlen
  have hlen' : b.length ≤ (buf.drop 4).length := by omega
  injection hr with hr
  injection hr with hp hrest
  subst hp hrest
  constructor
  · have : (buf.drop 4 ++ way).take b.length = b := by rw [ed, List.take_append_of_le_length (Nat.le_refl _), List.take_of_length_le (Nat.le_refl _)]
    rwa [List.take_append_of_le_length hlen'] at this
  · have : (buf.drop 4 ++ way).drop b.length = s := by
      rw [ed, List.drop_append_of_le_length (Nat.le_refl _), List.drop_of_length_le (Nat.le_refl _), List.nil_append]
    rwa [List.drop_append_of_le_length hlen'] at this

theorem readFrame_short {buf : Str} (h : buf = []) : readFrame buf = none := by subst h; rfl

/-- The next frame holds the next message. -/
theorem Written.read {c : Codec} {l : List Msg} {buf way p rest : Str} (hw : Written c l (buf ++ way))
    (hl : ∀ m ∈ l, ∀ b, c.serialize m = .ok b → b.length < 2 ^ 24) (hr : readFrame buf = some (p, rest)) :
    ∃ m l', l = m :: l' ∧ c.serialize m = .ok p ∧ Written c l' (rest ++ way) := by
  generalize hs : buf ++ way = st at hw
  cases hw with
  | nil =>
    have : buf = [] := by
      cases buf with
      | nil => rfl
      | cons a b => cases hs
    rw [readFrame_short this] at hr
    cases hr
  | cons h1 h2 =>
    rename_i m l b s
    obtain ⟨rfl, e⟩ := readFrame_frame (hl m (.head _) b h1) hs hr
    subst e
    exact ⟨m, l, rfl, h1, h2⟩

theorem Written.append {c : Codec} {l l' : List Msg} {s s' : Str} (h : Written c l s) (h' : Written c l' s') : Written c (l ++ l') (s ++ s') := by
  induction h with
  | nil => exact h'
  | cons h1 _ ih => rw [List.append_assoc]; exact .cons h1 ih

/-! ### What the wire does to a message is not noticed by `Session` -/

/-- Whether a value is true, false or no boolean stays. -/
def KeepsFlags (norm : Val → Val) : Prop := ∀ v, (norm v).asBool? = v.asBool?

theorem keepsFlags_wire (leaf : Val → Val) (h : ∀ v, (leaf v).asBool? = v.asBool?) : KeepsFlags (wire leaf) := by
  intro v
  cases v <;> simp only [wire] <;> first | rfl | exact h _

theorem keepsFlags_cbor : KeepsFlags cborWire := keepsFlags_wire _ fun v => by
  cases v <;> simp only [cborLeaf] <;> first | rfl | (split <;> rfl)
theorem keepsFlags_json : KeepsFlags jsonWire := keepsFlags_wire _ fun v => by cases v <;> rfl
theorem keepsFlags_msgpack : KeepsFlags msgpackWire := keepsFlags_wire _ fun v => by
  have hu : ∀ n, (msgpackCompactUint n).asBool? = none := by
    intro n; simp only [msgpackCompactUint]; repeat' (first | rfl | split)
  have hi : ∀ n, (msgpackCompactInt n).asBool? = none := by
    intro n; simp only [msgpackCompactInt]; repeat' (first | rfl | exact hu _ | split)
  cases v with
  | int k v => cases k <;> first | rfl | exact hi _
  | uint k v => cases k <;> first | rfl | exact hu _
  | _ => rfl

theorem get_onMap (norm : Val → Val) (m : GoMap) (k : Str) : (onMap norm m).get k = (m.get k).map norm := by
  cases m with
  | none => rfl
  | some d =>
    show dget (onDict norm d) k = (dget d k).map norm
    induction d with
    | nil => rfl
    | cons p d ih =>
      obtain ⟨k', v⟩ := p
      by_cases h : k = k' <;> simp_all [onDict, dget]

theorem flag_onMap {norm : Val → Val} (hn : KeepsFlags norm) (m : GoMap) (k : Str) : (onMap norm m).flag k = m.flag k := by
  unfold GoMap.flag
  rw [get_onMap]
  cases m.get k with
  | none => rfl
  | some v => simp [hn v]

theorem send_received {norm : Val → Val} (hn : KeepsFlags norm) (d : Res Str) (m : Msg) : send d (received norm m) = send d m := by
  cases d with
  | ok b => cases m <;> simp only [received, send, flag_onMap hn]
  | _ => rfl

theorem recv_received_state {norm : Val → Val} (hn : KeepsFlags norm) (m : Msg) (st : Session.State) :
    ((recv (received norm m)).run st).1 = ((recv m).run st).1 := by
  cases m with
  | result r d a k b =>
    simp only [received, recv, Prog.run, flag_onMap hn]
    cases st .call r <;> simp only [Prog.run]
    split <;> rfl
  | registered r g => rfl
  | unregistered r => rfl
  | invocation r g d a k b =>
    simp only [received, recv, Prog.run]
    cases st .registrations g <;> rfl
  | event g p d a k =>
    simp only [received, recv, Prog.run]
    cases st .subscriptions g <;> rfl
  | error t r d u a k =>
    simp only [received, recv]
    cases errorTab t with
    | none => rfl
    | some tab =>
      simp only [Prog.run]
      cases st tab r <;> rfl
  | _ => rfl

theorem accepts_received {norm : Val → Val} (hn : KeepsFlags norm) (m : Msg) (st : Session.State) :
    Accepts st (received norm m) ↔ Accepts st m := by
  unfold Accepts
  cases m with
  | result r d a k b =>
    simp only [received, recv, Prog.run, flag_onMap hn]
    cases st .call r <;> simp only [Prog.run]
    · simp
    · split <;> simp [Prog.run]
  | invocation r g d a k b =>
    simp only [received, recv, Prog.run]
    cases st .registrations g <;> simp [Prog.run]
  | event g p d a k =>
    simp only [received, recv, Prog.run]
    cases st .subscriptions g <;> simp [Prog.run]
  | error t r d u a k =>
    simp only [received, recv]
    cases errorTab t with
    | none => simp [Prog.run]
    | some tab =>
      simp only [Prog.run]
      cases st tab r <;> simp [Prog.run]
  | _ => simp [received, recv, Prog.run]

theorem request_received (norm : Val → Val) (m : Msg) : request (received norm m) = request m := by cases m <;> rfl

/-! ### Simulation -/

/-- What a session's serializer does to the messages within its limits. -/
structure Carried (c : Codec) (norm : Val → Val) (Fit : Msg → Prop) : Prop where
  flags : KeepsFlags norm
  survives : ∀ m, Fit m → RawSocket.Survives c (received norm) m

/-- State `x` of the message level corresponds to `n`. -/
structure Sim (c : Nat → Codec) (norm : Nat → Val → Val) (Fit : Nat → Msg → Prop) (n : Net) (x : Sys) : Prop where
  broker : x.broker = n.core.broker
  dealer : x.dealer = n.core.dealer
  client : x.client = n.core.client
  joined : x.joined = n.core.joined
  bh : x.bh = n.core.bh
  dh : x.dh = n.core.dh
  up0 : n.core.up = fun _ => []
  down0 : n.core.down = fun _ => []
  sent : ∀ s, x.sent s = (n.core.sent s).map (received (norm s))
  up : ∀ s, ∃ us, x.up s = us.map (received (norm s)) ∧ (∀ m ∈ us, Fit s m ∧ m ∈ n.core.sent s) ∧ Written (c s) us (n.upBuf s ++ n.upWay s)
  down : ∀ s, (∀ m ∈ x.down s, Fit s m) ∧ Written (c s) (x.down s) (n.downBuf s ++ n.downWay s)

theorem onDealer_links {w : Str → Str → Bool} {x y z : Sys} (op : Dealer.Op) (hd : x.dealer = y.dealer) (hh : x.dh = y.dh)
    (h : y.onDealer w op = some z) :
    z = { y with dealer := z.dealer, dh := z.dh } ∧ x.onDealer w op = some { x with dealer := z.dealer, dh := z.dh } := by
  unfold Sys.onDealer at h ⊢
  rw [hd, hh]
  cases hr : (Dealer.step w y.dealer op).2 with
  | panic => rw [hr] at h; cases h
  | ok o => rw [hr] at h; cases h; exact ⟨rfl, rfl⟩
  | err => rw [hr] at h; cases h; exact ⟨rfl, rfl⟩

/-- How the router handles a message depends on broker and dealer only, and what it sends is appended to the links. -/
theorem handle_links {w : Str → Str → Bool} {x y z : Sys} (s : Nat) (m : Msg) (wo : List Str) (so : List Nat) (rnd : Nat)
    (hb : x.broker = y.broker) (hd : x.dealer = y.dealer) (hbh : x.bh = y.bh) (hdh : x.dh = y.dh)
    (h : y.handle w s m wo so rnd = some z) :
    ∃ o : Nat → List Msg, z = { y with broker := z.broker, dealer := z.dealer, bh := z.bh, dh := z.dh, down := fun s => y.down s ++ o s } ∧
      x.handle w s m wo so rnd = some { x with broker := z.broker, dealer := z.dealer, bh := z.bh, dh := z.dh, down := fun s => x.down s ++ o s } := by
  have nothing : some y = some z → x.handle w s m wo so rnd = some x →
      ∃ o : Nat → List Msg, z = { y with broker := z.broker, dealer := z.dealer, bh := z.bh, dh := z.dh, down := fun s => y.down s ++ o s } ∧
        x.handle w s m wo so rnd = some { x with broker := z.broker, dealer := z.dealer, bh := z.bh, dh := z.dh, down := fun s => x.down s ++ o s } := by
    intro e e'
    cases e
    refine ⟨fun _ => [], by simp, ?_⟩
    rw [e', ← hb, ← hd, ← hbh, ← hdh]
    simp
  have broker : ∀ op, some ((y.onBroker w op).post (brokerOut (Broker.step w y.broker op).2)) = some z →
      x.handle w s m wo so rnd = some ((x.onBroker w op).post (brokerOut (Broker.step w x.broker op).2)) →
      ∃ o : Nat → List Msg, z = { y with broker := z.broker, dealer := z.dealer, bh := z.bh, dh := z.dh, down := fun s => y.down s ++ o s } ∧
        x.handle w s m wo so rnd = some { x with broker := z.broker, dealer := z.dealer, bh := z.bh, dh := z.dh, down := fun s => x.down s ++ o s } := by
    intro op e e'
    cases e
    refine ⟨fun s => messagesFor s (brokerOut (Broker.step w y.broker op).2), rfl, ?_⟩
    rw [e']
    simp only [Sys.post, Sys.onBroker, hb, hd, hbh, hdh]
  have dealer : ∀ op, ((y.onDealer w op).map fun v => v.post (dealerOut (Dealer.step w y.dealer op).2)) = some z →
      x.handle w s m wo so rnd = ((x.onDealer w op).map fun v => v.post (dealerOut (Dealer.step w x.dealer op).2)) →
      ∃ o : Nat → List Msg, z = { y with broker := z.broker, dealer := z.dealer, bh := z.bh, dh := z.dh, down := fun s => y.down s ++ o s } ∧
        x.handle w s m wo so rnd = some { x with broker := z.broker, dealer := z.dealer, bh := z.bh, dh := z.dh, down := fun s => x.down s ++ o s } := by
    intro op e e'
    obtain ⟨v, e1, e2⟩ := Option.map_eq_some_iff.1 e
    obtain ⟨g1, g2⟩ := onDealer_links op hd hdh e1
    subst e2
    refine ⟨fun s => messagesFor s (dealerOut (Dealer.step w y.dealer op).2), ?_, ?_⟩
    · rw [g1]; rfl
    · rw [e', g2]
      simp only [Option.map_some, Sys.post, hd]
      rw [g1]
      simp only [hb, hbh]
  cases m with
  | publish => exact broker _ h rfl
  | subscribe => exact broker _ h rfl
  | unsubscribe => exact broker _ h rfl
  | call => exact dealer _ h rfl
  | yield => exact dealer _ h rfl
  | register => exact dealer _ h rfl
  | unregister => exact dealer _ h rfl
  | error => exact dealer _ h rfl
  | _ => exact nothing h rfl

theorem written_nil (c : Codec) {l : List Msg} (h : Written c l []) : l = [] := by
  generalize hs : ([] : Str) = s at h
  cases h with
  | nil => rfl
  | cons h1 h2 =>
    have := congrArg List.length hs
    rw [List.length_append, frame_length] at this
    simp only [List.length_nil] at this
    omega

variable {w : Str → Str → Bool} {c : Nat → Codec} {norm : Nat → Val → Val} {Fit : Nat → Msg → Prop}

theorem Carried.size {c : Codec} {norm : Val → Val} {Fit : Msg → Prop} (h : Carried c norm Fit) {m : Msg} (hm : Fit m) {b : Str}
    (hb : c.serialize m = .ok b) : b.length < 2 ^ 24 ∧ c.deserialize b = .ok (received norm m) := by
  obtain ⟨b', h1, h2, h3⟩ := h.survives m hm
  rw [h1] at hb
  cases hb
  exact ⟨h2, h3⟩

/-- A frame that has arrived holds a message of the message level. -/
theorem Sim.read {l : List Msg} {s : Nat} (hc : Carried (c s) (norm s) (Fit s)) {buf way p rest : Str} (hw : Written (c s) l (buf ++ way))
    (hl : ∀ m ∈ l, Fit s m) (hr : readFrame buf = some (p, rest)) :
    ∃ m l', l = m :: l' ∧ (c s).serialize m = .ok p ∧ (c s).deserialize p = .ok (received (norm s) m) ∧ Written (c s) l' (rest ++ way) := by
  obtain ⟨m, l', rfl, h1, h2⟩ := hw.read (fun m hm b hb => (hc.size (hl m hm) hb).1) hr
  exact ⟨m, l', rfl, h1, (hc.size (hl m (.head _)) h1).2, h2⟩

/-- The action of the message level that corresponds to a step: sending is sending what the router will read. -/
def Mirrors (norm : Nat → Val → Val) (n n' : Net) (a : Action) : Prop :=
  (∀ s data m, a = .send s data m → ∃ m0, m = received (norm s) m0 ∧ n'.core.sent s = m0 :: n.core.sent s) ∧
  ((∀ s data m, a ≠ .send s data m) → n'.core.sent = n.core.sent)

/-- A step has its counterpart at the message level, or none is needed: some bytes have arrived. -/
theorem sim_act (hc : ∀ s, Carried (c s) (norm s) (Fit s)) {n n' : Net} {x : Sys} {got : Nat → List Msg}
    (hs : Sim c norm Fit n x) (hgot : ∀ s, n.got s = (got s).map (received (norm s)))
    (h : Step w c Fit n n') :
    ∃ x' got', ((x' = x ∧ got' = got ∧ n'.core = n.core) ∨ ∃ a, Log.act w ⟨x, got⟩ a = some ⟨x', got'⟩ ∧ Mirrors norm n n' a) ∧
      Sim c norm Fit n' x' ∧ ∀ s, n'.got s = (got' s).map (received (norm s)) := by
  obtain ⟨h1, h2, h3, h4, h5, h6, h7, h8, h9, h10, h11⟩ := hs
  cases h with
  | admin a ha hy =>
    rename_i y
    -- what `join`, `leave` and `disclose` do depends on broker, dealer and the IDs only
    have : ∃ z, x.act w a = some z ∧ z = { x with broker := z.broker, dealer := z.dealer, bh := z.bh, dh := z.dh, joined := z.joined } ∧
        y = { n.core with broker := z.broker, dealer := z.dealer, bh := z.bh, dh := z.dh, joined := z.joined } := by
      rcases ha with ⟨d, rfl⟩ | ⟨s, o, o', rfl⟩ | ⟨p, q, rfl⟩
      · simp only [Sys.act] at hy ⊢
        split at hy
        · cases hy
        rename_i hj
        rw [if_neg (by rwa [h4])]
        obtain ⟨g1, g2⟩ := onDealer_links (x := ({ x with joined := d.id :: x.joined } : Sys).onBroker w (.add d)) (.add d)
          (by exact h2) (by exact h6) hy
        refine ⟨_, g2, rfl, ?_⟩
        rw [g1]; simp only [Sys.onBroker, h1, h4, h5]
      · simp only [Sys.act] at hy ⊢
        obtain ⟨g1, g2⟩ := onDealer_links (x := x.onBroker w (.remove s o)) (.remove s o') (by exact h2) (by exact h6) hy
        refine ⟨_, g2, rfl, ?_⟩
        rw [g1]; simp only [Sys.onBroker, h1, h4, h5]
      · simp only [Sys.act] at hy ⊢
        obtain ⟨g1, g2⟩ := onDealer_links (x := x.onBroker w (.disclose p)) (.disclose q) (by exact h2) (by exact h6) hy
        refine ⟨_, g2, rfl, ?_⟩
        rw [g1]; simp only [Sys.onBroker, h1, h4, h5]
    obtain ⟨z, e1, e2, e3⟩ := this
    refine ⟨z, got, .inr ⟨a, ?_, ?_⟩, ?_, hgot⟩
    · rcases ha with ⟨d, rfl⟩ | ⟨s, o, o', rfl⟩ | ⟨p, q, rfl⟩ <;> simp [Log.act, e1]
    · refine ⟨?_, fun _ => ?_⟩
      · rcases ha with ⟨d, rfl⟩ | ⟨s, o, o', rfl⟩ | ⟨p, q, rfl⟩ <;> (intro _ _ _ e; cases e)
      · have := congrArg Sys.sent e3; exact this
    rw [e2, e3]
    exact ⟨rfl, rfl, h3, rfl, rfl, rfl, h7, h8, h9, h10, h11⟩
  | send s m b hb hf hy =>
    rename_i y
    simp only [Sys.act] at hy
    split at hy
    · rename_i cl r e
      split at hy
      · rename_i hj
        cases hy
        refine ⟨{ x with client := upd x.client s cl, up := upd x.up s (x.up s ++ [received (norm s) m]), sent := upd x.sent s (received (norm s) m :: x.sent s) },
          got, .inr ⟨.send s b (received (norm s) m), ?_, ?_⟩, ⟨h1, h2, ?_, h4, h5, h6, rfl, rfl, ?_, ?_, h11⟩, hgot⟩
        · simp only [Log.act, Sys.act, send_received (hc s).flags, h3, e, h4, if_pos hj, Option.map_some]
        · refine ⟨?_, fun h => absurd rfl (h _ _ _)⟩
          intro _ _ _ e
          cases e
          exact ⟨m, rfl, by simp [Sys.emptied, upd]⟩
        · simp only [Sys.emptied, h3]
        · intro s'
          simp only [Sys.emptied, upd]
          split
          · rename_i e; subst e; simp [h9]
          · exact h9 s'
        · intro s'
          obtain ⟨us, g1, g2, g3⟩ := h10 s'
          simp only [upd]
          split
          · rename_i e; subst e
            refine ⟨us ++ [m], by simp [g1], ?_, ?_⟩
            · intro m' hm'
              rcases List.mem_append.1 hm' with hm' | hm'
              · exact ⟨(g2 m' hm').1, by simp [Sys.emptied, upd, (g2 m' hm').2]⟩
              · rcases List.mem_singleton.1 hm' with rfl; exact ⟨hf, by simp [Sys.emptied, upd]⟩
            · have := g3.append (.cons hb .nil)
              rwa [List.append_nil, List.append_assoc] at this
          · rename_i e; exact ⟨us, g1, by simpa [Sys.emptied, upd, e] using g2, g3⟩
      · cases hy
    · cases hy
  | upArrive s a b hab =>
    refine ⟨x, got, .inl ⟨rfl, rfl, rfl⟩, ⟨h1, h2, h3, h4, h5, h6, h7, h8, h9, ?_, h11⟩, hgot⟩
    intro s'
    obtain ⟨us, g1, g2, g3⟩ := h10 s'
    refine ⟨us, g1, g2, ?_⟩
    simp only [upd]
    split
    · rename_i e; subst e; rwa [List.append_assoc, ← hab]
    · exact g3
  | downArrive s a b hab =>
    refine ⟨x, got, .inl ⟨rfl, rfl, rfl⟩, ⟨h1, h2, h3, h4, h5, h6, h7, h8, h9, h10, ?_⟩, hgot⟩
    intro s'
    refine ⟨(h11 s').1, ?_⟩
    simp only [upd]
    split
    · rename_i e; subst e; rw [List.append_assoc, ← hab]; exact (h11 s').2
    · exact (h11 s').2
  | route s wo so rnd p rest m out hr hdes hy hfit hout =>
    rename_i y
    obtain ⟨us, g1, g2, g3⟩ := h10 s
    obtain ⟨m0, us', rfl, k1, k2, k3⟩ := Sim.read (hc s) g3 (fun m hm => (g2 m hm).1) hr
    rw [hdes] at k2
    injection k2 with k2
    subst k2
    have hup : upd n.core.up s [received (norm s) m0] s = [received (norm s) m0] := by simp [upd]
    simp only [Sys.act, hup] at hy
    have hxup : x.up s = received (norm s) m0 :: us'.map (received (norm s)) := by rw [g1]; rfl
    obtain ⟨o, e1, e2⟩ := handle_links (x := { x with up := upd x.up s (us'.map (received (norm s))) })
      (y := { n.core with up := upd (upd n.core.up s [received (norm s) m0]) s [] }) s _ wo so rnd h1 h2 h5 h6 hy
    have e3 : x.act w (.route s wo so rnd) = Sys.handle w { x with up := upd x.up s (us'.map (received (norm s))) } s (received (norm s) m0) wo so rnd := by
      simp only [Sys.act, hxup]
    rw [e2] at e3
    have e4 : Log.act w ⟨x, got⟩ (.route s wo so rnd) = some ⟨_, got⟩ := congrArg (Option.map fun y => (⟨y, got⟩ : Log)) e3
    have hsent := congrArg Sys.sent e1
    replace hsent : y.sent = n.core.sent := hsent
    refine ⟨_, got, .inr ⟨_, e4, fun _ _ _ e => (nomatch e), fun _ => hsent⟩, ?_, hgot⟩
    have hyd : ∀ s', y.down s' = o s' := by
      intro s'
      have := congrFun (congrArg Sys.down e1) s'
      simpa [h8] using this
    refine ⟨rfl, rfl, ?_, ?_, rfl, rfl, rfl, rfl, ?_, ?_, ?_⟩
    · have := congrArg Sys.client e1; simp only [Sys.emptied]; rw [h3, this]
    · have := congrArg Sys.joined e1; simp only [Sys.emptied]; rw [h4, this]
    · intro s'; have := congrArg Sys.sent e1; simp only [Sys.emptied]; rw [h9, this]
    · intro s'
      simp only [upd, Sys.emptied, hsent]
      split
      · rename_i e; subst e
        exact ⟨us', rfl, fun m' hm' => g2 m' (.tail _ hm'), k3⟩
      · exact h10 s'
    · intro s'
      constructor
      · intro m' hm'
        rcases List.mem_append.1 hm' with hm' | hm'
        · exact (h11 s').1 m' hm'
        · exact hfit s' m' (by rwa [hyd])
      · have := (h11 s').2.append (hout s')
        rw [hyd, List.append_assoc] at this
        exact this
  | deliver s p rest m hr hdes hy =>
    rename_i y
    obtain ⟨d1, d2⟩ := h11 s
    obtain ⟨m0, ds', e0, k1, k2, k3⟩ := Sim.read (hc s) d2 d1 hr
    rw [hdes] at k2
    injection k2 with k2
    subst k2
    have hdn : upd n.core.down s [received (norm s) m0] s = [received (norm s) m0] := by simp [upd]
    simp only [Sys.act, hdn] at hy
    cases hy
    have e3 : x.act w (.deliver s) = some { x with client := upd x.client s ((recv m0).run (x.client s)).1, down := upd x.down s ds' } := by
      simp only [Sys.act, e0]
    have e4 : Log.act w ⟨x, got⟩ (.deliver s) =
        some ⟨{ x with client := upd x.client s ((recv m0).run (x.client s)).1, down := upd x.down s ds' }, upd got s (got s ++ [m0])⟩ := by
      have h1 : got s ++ (x.down s).take 1 = got s ++ [m0] := by rw [e0]; rfl
      have := congrArg (Option.map fun y => (⟨y, upd got s (got s ++ (x.down s).take 1)⟩ : Log)) e3
      rw [h1] at this
      simp only [Log.act]
      rw [h1]
      exact this
    refine ⟨_, _, .inr ⟨_, e4, fun _ _ _ e => (nomatch e), fun _ => rfl⟩, ⟨h1, h2, ?_, h4, h5, h6, rfl, rfl, h9, h10, ?_⟩, ?_⟩
    · simp only [Sys.emptied, h3, recv_received_state (hc s).flags]
    · intro s'
      simp only [upd]
      split
      · rename_i e; subst e
        rw [e0] at d1
        exact ⟨fun m' hm' => d1 m' (.tail _ hm'), k3⟩
      · exact h11 s'
    · intro s'
      simp only [upd]
      split
      · rename_i e; subst e; simp [hgot]
      · exact hgot s'

theorem sim_step (hc : ∀ s, Carried (c s) (norm s) (Fit s)) {n n' : Net} {x : Sys} {got : Nat → List Msg}
    (hx : Log.Reach w ⟨x, got⟩) (hs : Sim c norm Fit n x) (hgot : ∀ s, n.got s = (got s).map (received (norm s)))
    (h : Step w c Fit n n') :
    ∃ x' got', Log.Reach w ⟨x', got'⟩ ∧ Sim c norm Fit n' x' ∧ ∀ s, n'.got s = (got' s).map (received (norm s)) := by
  obtain ⟨x', got', h1, h2, h3⟩ := sim_act hc hs hgot h
  refine ⟨x', got', ?_, h2, h3⟩
  rcases h1 with ⟨rfl, rfl, -⟩ | ⟨a, h1, -⟩
  · exact hx
  · exact hx.act a h1

theorem reach_log (hc : ∀ s, Carried (c s) (norm s) (Fit s)) {n : Net} (h : Reach w c Fit n) :
    ∃ x got, Log.Reach w ⟨x, got⟩ ∧ Sim c norm Fit n x ∧ ∀ s, n.got s = (got s).map (received (norm s)) := by
  induction h with
  | new =>
    exact ⟨Sys.new, _, .new, ⟨rfl, rfl, rfl, rfl, rfl, rfl, rfl, rfl, fun _ => rfl, fun _ => ⟨[], rfl, by simp, .nil⟩, fun _ => ⟨by simp [Sys.new], .nil⟩⟩,
      fun _ => rfl⟩
  | step _ hs ih =>
    obtain ⟨x, got, hx, hsim, hgot⟩ := ih
    exact sim_step hc hx hsim hgot hs

theorem reach_sim (hc : ∀ s, Carried (c s) (norm s) (Fit s)) {n : Net} (h : Reach w c Fit n) :
    ∃ x, System.Reach w x ∧ Sim c norm Fit n x := by
  obtain ⟨x, got, hx, hs, -⟩ := reach_log hc h
  exact ⟨x, log_sys hx, hs⟩

end Wamp.Net
