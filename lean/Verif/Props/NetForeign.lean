import Verif.Lemmas.NetForeign
import Verif.Props.NetComplete
/-!
# C137: clients that write any bytes

C131 for sessions that use JSON, CBOR or MsgPack over raw sockets, when others write arbitrary bytes on their connections.
-/
namespace Wamp.Net
open Wamp Wamp.System Wamp.Spec Wamp.Session

variable {w : Str → Str → Bool} {k : Nat → Kind} {F : Nat → Bool}

/-- Every state of router and clients in which session `s` uses serializer `k s`, and the clients in `F` are foreign. -/
abbrev OpenRun (w : Str → Str → Bool) (k : Nat → Kind) (F : Nat → Bool) (n : Net) : Prop :=
  OpenReach w (fun s => (k s).codec) (fun s => (k s).Fit) F n

/-- What the router has read or will read of what client `p` has sent, oldest first: of a foreign client, the messages the router has read. -/
def heardFrom (F : Nat → Bool) (k : Nat → Kind) (n : Net) (p : Nat) : List Msg :=
  ((n.core.sent p).reverse).map fun m => if F p then m else received (k p).norm m

/-- As `Traced`: the messages `read` by `s` have their causes, one each, among the messages sent; those of the same client in the order in which that
client sent them. -/
def TracedFrom (w : Str → Str → Bool) (F : Nat → Bool) (k : Nat → Kind) (n : Net) (s : Nat) (read : List Msg) : Prop :=
  ∃ src : List (Nat × Msg × Msg), src.map (fun q => q.2.2) = read ∧
    (∀ q ∈ src, ∃ out, q.2.2 = received (k s).norm out ∧ Caused w (heardFrom F k n) s q.1 q.2.1 out) ∧
    ∀ p, ((src.filter fun q => q.1 = p).map fun q => q.2.1).Sublist (heardFrom F k n p)

/-- `l` is the state `n` at the message level. -/
structure OAt (k : Nat → Kind) (F : Nat → Bool) (n : Net) (l : Log) : Prop where
  sim : OSim (fun s => (k s).codec) (fun s => (k s).norm) (fun s => (k s).Fit) F n l.sys
  got : ∀ s, n.got s = (l.got s).map (received (k s).norm)

theorem open_at {n : Net} (h : OpenRun w k F n) : ∃ l, Log.Open w F l ∧ OAt k F n l := by
  obtain ⟨l, h1, h2, h3⟩ := open_reach_log (norm := fun s => (k s).norm) (fun s _ => (k s).carried) h
  exact ⟨l, h1, h2, h3⟩

theorem OAt.fresh {n : Net} {l : Log} (h : OAt k F n l) {s : Nat} (hf : Fresh n.core s) : Fresh l.sys s := by
  unfold Fresh at hf ⊢
  rw [h.sim.sent, List.filterMap_map]
  have : (request ∘ reading F (fun s => (k s).norm) s) = request := by
    funext m
    simp only [Function.comp_apply, reading]
    split
    · rfl
    · exact request_received _ m
  rwa [this]

theorem OAt.stays {n : Net} {l : Log} (h : OAt k F n l) {s : Nat} : Stays l.sys s ↔ Stays n.core s := by
  unfold Stays; rw [h.sim.bh, h.sim.dh]

theorem OAt.down {n : Net} {l : Log} (h : OAt k F n l) {s : Nat} (hF : F s = false) (hs : n.ReadAll s) : l.sys.down s = [] := by
  have := (h.sim.down s hF).2
  rw [hs.1, hs.2] at this
  exact written_nil _ this

theorem OAt.up {n : Net} {l : Log} (h : OAt k F n l) {s : Nat} (hF : F s = false) (hs : n.TakenAll s) : l.sys.up s = [] := by
  obtain ⟨us, h1, -, h3⟩ := h.sim.up s hF
  rw [hs.1, hs.2] at h3
  rw [h1, written_nil _ h3]; rfl

theorem OAt.inbox {n : Net} {l : Log} (h : OAt k F n l) {s : Nat} (hF : F s = false) (hs : n.ReadAll s) : n.got s = (l.inbox s).map (received (k s).norm) := by
  rw [Log.inbox, h.down hF hs, List.append_nil, h.got]

theorem OAt.heard {n : Net} {l : Log} (h : OAt k F n l) (s : Nat) : l.outbox s = heardFrom F k n s := by
  simp only [Log.outbox, heardFrom, h.sim.sent, ← List.map_reverse]
  rfl

theorem OAt.mem_heard {n : Net} {l : Log} (h : OAt k F n l) {s : Nat} {m : Msg} : m ∈ l.sys.sent s ↔ m ∈ heardFrom F k n s := by
  rw [← h.heard, Log.outbox, List.mem_reverse]

theorem OAt.mem_own {n : Net} {l : Log} (h : OAt k F n l) {s : Nat} (hF : F s = false) {m : Msg} :
    m ∈ l.sys.sent s ↔ ∃ m0 ∈ n.core.sent s, received (k s).norm m0 = m := by
  rw [h.sim.sent, List.mem_map]
  simp only [reading_own hF]

theorem OAt.unsubscribe {n : Net} {l : Log} (h : OAt k F n l) {s q i : Nat} (hF : F s = false) :
    .unsubscribe q i ∈ l.sys.sent s ↔ .unsubscribe q i ∈ n.core.sent s := by
  rw [h.mem_own hF]
  constructor
  · rintro ⟨m0, h1, h2⟩
    cases m0 <;> simp only [received, reduceCtorEq] at h2
    cases h2; exact h1
  · intro h1; exact ⟨_, h1, rfl⟩

theorem OAt.unregister {n : Net} {l : Log} (h : OAt k F n l) {s q i : Nat} (hF : F s = false) :
    .unregister q i ∈ l.sys.sent s ↔ .unregister q i ∈ n.core.sent s := by
  rw [h.mem_own hF]
  constructor
  · rintro ⟨m0, h1, h2⟩
    cases m0 <;> simp only [received, reduceCtorEq] at h2
    cases h2; exact h1
  · intro h1; exact ⟨_, h1, rfl⟩

theorem open_next {n : Net} (h : OpenRun w k F n) {s : Nat} (hF : F s = false) {p rest : Str} (hr : readFrame (n.downBuf s) = some (p, rest)) :
    ∃ l m ms, Log.Open w F l ∧ OAt k F n l ∧ l.sys.down s = m :: ms ∧ (k s).codec.deserialize p = .ok (received (k s).norm m) := by
  obtain ⟨l, hl, ha⟩ := open_at h
  obtain ⟨g2, g3⟩ := ha.sim.down s hF
  obtain ⟨m, us', e, -, h2, -⟩ := Sim.read (c := fun s => (k s).codec) (norm := fun s => (k s).norm) (Fit := fun s => (k s).Fit) (k s).carried g3 g2 hr
  exact ⟨l, m, us', hl, ha, e, h2⟩

/-! ### Frames stay whole -/

/-- **C137** Whatever bytes others write: a complete frame of a client that uses this library holds a message that the client sent. -/
theorem C137_up {n : Net} (h : OpenRun w k F n) (s : Nat) (hF : F s = false) (p rest : Str) (hr : readFrame (n.upBuf s) = some (p, rest)) :
    ∃ m ∈ n.core.sent s, (k s).codec.deserialize p = .ok (received (k s).norm m) := by
  obtain ⟨l, _, ha⟩ := open_at h
  obtain ⟨us, -, g2, g3⟩ := ha.sim.up s hF
  obtain ⟨m, us', rfl, -, h2, -⟩ := Sim.read (c := fun s => (k s).codec) (norm := fun s => (k s).norm) (Fit := fun s => (k s).Fit) (k s).carried g3 (fun m hm => (g2 m hm).1) hr
  exact ⟨m, (g2 m (.head _)).2, h2⟩

/-- **C137** And a complete frame that reaches such a client holds a message that it can read. -/
theorem C137_down {n : Net} (h : OpenRun w k F n) (s : Nat) (hF : F s = false) (p rest : Str) (hr : readFrame (n.downBuf s) = some (p, rest)) :
    ∃ m, (k s).codec.deserialize p = .ok m := by
  obtain ⟨l, m, ms, _, _, _, hd⟩ := open_next h hF hr
  exact ⟨_, hd⟩

/-! ### Messages are accepted -/

/-- **C137** An EVENT, SUBSCRIBED, UNSUBSCRIBED or PUBLISHED that a client of this library reads from its connection is accepted by its `Session`. -/
theorem C137_broker_accepted {n : Net} (h : OpenRun w k F n) (hb : n.core.bh.length < 2 ^ 53) (s : Nat) (hF : F s = false) (hf : Fresh n.core s) (p rest : Str)
    (m : Msg) (hr : readFrame (n.downBuf s) = some (p, rest)) (hm : (k s).codec.deserialize p = .ok m)
    (hk : (∃ i p d a k, m = .event i p d a k) ∨ (∃ r i, m = .subscribed r i) ∨ (∃ r, m = .unsubscribed r) ∨ ∃ r p, m = .published r p) :
    Accepts (n.core.client s) m := by
  obtain ⟨l, m', ms, hl, ha, e, hd⟩ := open_next h hF hr
  rw [hd] at hm
  cases hm
  rw [accepts_received (k s).carried.flags, ← ha.sim.client]
  refine C131_broker_accepted hl (by rwa [ha.sim.bh]) s hF (ha.fresh hf) m' ms e ?_
  cases m' <;> simp [received] at hk ⊢

/-- **C137** So is a RESULT, REGISTERED or ERROR. -/
theorem C137_answers_accepted {n : Net} (h : OpenRun w k F n) (hb : n.core.bh.length < 2 ^ 53) (s : Nat) (hF : F s = false) (hf : Fresh n.core s) (p rest : Str)
    (m : Msg) (hr : readFrame (n.downBuf s) = some (p, rest)) (hm : (k s).codec.deserialize p = .ok m)
    (hk : (∃ r d a k bin, m = .result r d a k bin) ∨ (∃ r g, m = .registered r g) ∨ ∃ t r d u a k, m = .error t r d u a k) :
    Accepts (n.core.client s) m := by
  obtain ⟨l, m', ms, hl, ha, e, hd⟩ := open_next h hF hr
  rw [hd] at hm
  cases hm
  rw [accepts_received (k s).carried.flags, ← ha.sim.client]
  refine C131_answers_accepted hl (by rwa [ha.sim.bh]) s hF (ha.fresh hf) m' ms e ?_
  cases m' <;> simp [received] at hk ⊢

/-- **C137** So is an INVOCATION of a registration that the client has not asked to end. -/
theorem C137_invocation_accepted {n : Net} (h : OpenRun w k F n) (hb : n.core.bh.length < 2 ^ 53) (hdh : n.core.dh.length ≤ 2 ^ 53) (s : Nat) (hF : F s = false)
    (hf : Fresh n.core s) (p rest : Str) (i g : Nat) (d : GoMap) (a : GoSlice) (kw : GoMap) (bin : Bin)
    (hr : readFrame (n.downBuf s) = some (p, rest)) (hm : (k s).codec.deserialize p = .ok (.invocation i g d a kw bin))
    (hn : ∀ r, .unregister r g ∉ n.core.sent s) : Accepts (n.core.client s) (.invocation i g d a kw bin) := by
  obtain ⟨l, m', ms, hl, ha, e, hd⟩ := open_next h hF hr
  rw [hd] at hm
  have := (C131_invocations_accepted hl (by rwa [ha.sim.bh]) (by rwa [ha.sim.dh]) s hF (ha.fresh hf) m' ms e).1
  cases m' <;> simp only [received] at hm <;> try (cases hm; done)
  rename_i i' g' d' a' kw' bin'
  injection hm with hm
  injection hm with e1 e2 e3 e4 e5 e6
  subst e1 e2
  have h2 := this _ _ _ _ _ _ rfl (fun r hr => hn r ((ha.unregister hF).1 hr))
  rw [ha.sim.client] at h2
  rw [← e3, ← e4, ← e5, ← e6]
  exact (accepts_received (k s).carried.flags _ _).2 h2

/-! ### Messages have their causes -/

theorem tracedFrom_of {n : Net} {l : Log} {s : Nat} {P : Msg → Bool} (hP : ∀ m, P (received (k s).norm m) = P m) (ha : OAt k F n l)
    (h : System.Traced w l s ((l.inbox s).filter P)) : TracedFrom w F k n s ((n.got s).filter P) := by
  obtain ⟨src, h1, h2, h3⟩ := h
  have hc : ∀ {p m out}, Caused w l.sys.sent s p m out → Caused w (heardFrom F k n) s p m out := by
    intro p m out h
    exact h.mono fun p' m' hm' => ha.mem_heard.1 hm'
  have hg : (n.got s).filter P = ((l.got s).filter P).map (received (k s).norm) := by
    rw [ha.got, List.filter_map]
    congr 1
    apply List.filter_congr
    intro m _; exact hP m
  have hp : ((l.got s).filter P) = (src.take ((l.got s).filter P).length).map fun q => q.2.2 := by
    rw [List.map_take, h1, Log.inbox, List.filter_append, List.take_left']; rfl
  have ht : (src.take ((l.got s).filter P).length).Sublist src := List.take_sublist _ _
  refine ⟨(src.take ((l.got s).filter P).length).map fun q => (q.1, q.2.1, received (k s).norm q.2.2), ?_, ?_, ?_⟩
  · rw [hg]
    conv => rhs; rw [hp]
    simp only [List.map_map]
    rfl
  · intro q hq
    obtain ⟨q', hq', rfl⟩ := List.mem_map.1 hq
    exact ⟨q'.2.2, rfl, hc (h2 q' (ht.subset hq'))⟩
  · intro p
    rw [List.filter_map, List.map_map, ← ha.heard]
    exact ((ht.filter _).map _).trans (h3 p)

/-- **C137** The EVENTs a client has read come from PUBLISHes that clients sent, each from one of its own, for a topic the client has asked for; those
from the same publisher in the order in which it sent them. -/
theorem C137_events {n : Net} (h : OpenRun w k F n) (hb : n.core.bh.length < 2 ^ 53) (hd : n.core.dh.length ≤ 2 ^ 53) (s : Nat) :
    TracedFrom w F k n s ((n.got s).filter isEvent) := by
  obtain ⟨l, hl, ha⟩ := open_at h
  exact tracedFrom_of (isEvent_received _) ha (C131_events hl (by rwa [ha.sim.bh]) (by rwa [ha.sim.dh]) s)

/-- **C137** And all other messages from requests, CALLs, YIELDs and ERRORs. -/
theorem C137_answers {n : Net} (h : OpenRun w k F n) (hb : n.core.bh.length < 2 ^ 53) (hd : n.core.dh.length ≤ 2 ^ 53) (s : Nat) :
    TracedFrom w F k n s ((n.got s).filter fun m => !isEvent m) := by
  obtain ⟨l, hl, ha⟩ := open_at h
  exact tracedFrom_of (fun m => by rw [isEvent_received]) ha (C131_answers hl (by rwa [ha.sim.bh]) (by rwa [ha.sim.dh]) s)

/-- **C137** Clients read EVENTs in the order of their publication IDs, each once. -/
theorem C137_order {n : Net} (h : OpenRun w k F n) (hb : n.core.bh.length < 2 ^ 53) (s : Nat) : (publications (n.got s)).Pairwise (· < ·) := by
  obtain ⟨l, hl, ha⟩ := open_at h
  obtain ⟨events, e1, -, e2⟩ := C131_total_order hl (by rwa [ha.sim.bh])
  rw [ha.got, publications_received, ← publications_filter]
  refine e1.sublist (List.Sublist.filterMap _ (.trans ?_ (e2 s)))
  exact (List.sublist_append_left _ _).filter _

/-! ### Nothing is missing -/

/-- **C137** Once the router has read all bytes of a client of this library that it has not removed, and the client all bytes of the router, the client
has read the answers to all its SUBSCRIBEs, REGISTERs and PUBLISHes that ask for one. -/
theorem C137_requests_answered {n : Net} (h : OpenRun w k F n) (hb : n.core.bh.length < 2 ^ 53) (s : Nat) (hF : F s = false) (hs : Stays n.core s)
    (hu : n.TakenAll s) (hd : n.ReadAll s) (m : Msg) (hm : m ∈ n.core.sent s) : answeredBy (n.got s) m := by
  obtain ⟨l, hl, ha⟩ := open_at h
  rw [ha.inbox hF hd]
  rcases C131_requests_answered hl (by rwa [ha.sim.bh]) s hF (ha.stays.2 hs) _ ((ha.mem_own hF).2 ⟨m, hm, rfl⟩) with h1 | h1
  · rw [ha.up hF hu] at h1; cases h1
  · exact answeredBy_received (k s).carried.flags h1

/-- **C137** Such a client reads no answer to a request after the one that settles it. -/
theorem C137_settled_once {n : Net} (h : OpenRun w k F n) (hb : n.core.bh.length < 2 ^ 53) (s : Nat) (hF : F s = false) (hf : Fresh n.core s)
    (pre post : List Msg) (m : Msg) (q : Nat × Nat) (hm : n.got s = pre ++ m :: post) (hq : settles m = some q) :
    (∃ m' ∈ n.core.sent s, request m' = some q) ∧ ∀ m' ∈ post, answers m' ≠ some q := by
  obtain ⟨l, hl, ha⟩ := open_at h
  rw [ha.got] at hm
  obtain ⟨pre0, rest, e, rfl, e2⟩ := List.map_eq_append_iff.1 hm
  obtain ⟨m0, post0, rfl, rfl, rfl⟩ := List.map_eq_cons_iff.1 e2
  rw [settles_received (k s).carried.flags] at hq
  obtain ⟨⟨m', h1, h2⟩, h3⟩ := C131_settled_once hl (by rwa [ha.sim.bh]) s (ha.fresh hf) pre0 (post0 ++ l.sys.down s) m0 q
    (by rw [Log.inbox, e]; simp) hq
  refine ⟨?_, ?_⟩
  · obtain ⟨m1, g1, rfl⟩ := (ha.mem_own hF).1 h1
    exact ⟨m1, g1, by rwa [request_received] at h2⟩
  · intro m' hm'
    obtain ⟨m1, g1, rfl⟩ := List.mem_map.1 hm'
    rw [answers_received]
    exact h3 m1 (List.mem_append_left _ g1)

/-- **C137** Before an EVENT the client has read a SUBSCRIBED for its subscription, and since then no UNSUBSCRIBED for it. -/
theorem C137_events_while_subscribed {n : Net} (h : OpenRun w k F n) (hb : n.core.bh.length < 2 ^ 53) (s : Nat) (hF : F s = false)
    (hq : ∀ q i j, .unsubscribe q i ∈ n.core.sent s → .unsubscribe q j ∈ n.core.sent s → i = j)
    (pre post : List Msg) (i p : Nat) (d : GoMap) (a : GoSlice) (kw : GoMap) (he : n.got s = pre ++ .event i p d a kw :: post) :
    ∃ earlier r between, pre = earlier ++ .subscribed r i :: between ∧ ∀ q, .unsubscribed q ∈ between → .unsubscribe q i ∉ n.core.sent s := by
  obtain ⟨l, hl, ha⟩ := open_at h
  rw [ha.got] at he
  obtain ⟨pre0, rest, e, rfl, e2⟩ := List.map_eq_append_iff.1 he
  obtain ⟨m0, post0, rfl, e3, rfl⟩ := List.map_eq_cons_iff.1 e2
  cases m0 <;> simp only [received, reduceCtorEq] at e3
  cases e3
  obtain ⟨earlier, r, between, rfl, h2⟩ := C131_events_while_subscribed hl (by rwa [ha.sim.bh]) s hF
    (fun q i j h1 h2 => hq q i j ((ha.unsubscribe hF).1 h1) ((ha.unsubscribe hF).1 h2)) pre0 (post0 ++ l.sys.down s) _ _ _ _ _
    (by rw [Log.inbox, e, List.append_assoc]; rfl)
  refine ⟨earlier.map (received (k s).norm), r, between.map (received (k s).norm), by simp [received], fun q h => ?_⟩
  rw [← ha.unsubscribe hF]
  exact h2 q (unsubscribed_received.1 h)

/-! ### No EVENT is missed -/

theorem move_publication {l l' : Log} {v : Move} (h : l.move w F v = some l') (t : Str) :
    ∃ es, l'.sys.bh = es ++ l.sys.bh ∧ es.length ≤ 1 ∧
      es.filterMap (publication t) = (l.takenFrom w F [v]).filterMap (fun q => publishedTo t q.2) ∧
      ∀ q ∈ l.takenFrom w F [v], publishedTo t q.2 ≠ none → ∃ e ∈ es, publisher t e = some q.1 := by
  cases v with
  | act a =>
    have ha : l.act w a = some l' := by
      cases a <;> simp only [Log.move] at h <;> first | exact h | skip
      split at h
      · cases h
      · exact h
    obtain ⟨es, f1, f2, f3, f4⟩ := act_publication ha t
    have e : l.takenFrom w F [.act a] = l.taken w [a] := by
      simp only [Log.takenFrom, Log.taken, h, ha, List.append_nil]
      cases a <;> rfl
    rw [e]
    exact ⟨es, f1, f2, f3, f4⟩
  | inject s m =>
    have e : l.takenFrom w F [.inject s m] = [] := by simp only [Log.takenFrom, h, List.append_nil]
    rw [e]
    simp only [Log.move] at h
    split at h
    · cases h; exact ⟨[], rfl, Nat.zero_le _, rfl, fun _ h => (nomatch h)⟩
    · cases h

theorem takenFrom_cons {l z : Log} {v : Move} (h : l.move w F v = some z) (vs : List Move) :
    l.takenFrom w F (v :: vs) = l.takenFrom w F [v] ++ z.takenFrom w F vs := by
  simp only [Log.takenFrom, h, List.append_nil]

/-- The PUBLISHes that the router takes are those the broker is given. -/
theorem takenFrom_bh {l l' : Log} (vs : List Move) (h : l.moves w F vs = some l') (t : Str) :
    ∃ more, l'.sys.bh = more ++ l.sys.bh ∧ more.reverse.filterMap (publication t) = (l.takenFrom w F vs).filterMap (fun q => publishedTo t q.2) ∧
      ∀ q ∈ l.takenFrom w F vs, publishedTo t q.2 ≠ none → ∃ e ∈ more, publisher t e = some q.1 := by
  induction vs generalizing l with
  | nil => cases h; exact ⟨[], rfl, rfl, fun _ h => nomatch h⟩
  | cons v vs ih =>
    obtain ⟨z, h1, h2⟩ := Option.bind_eq_some_iff.1 h
    obtain ⟨more, e1, e2, e3⟩ := ih h2
    obtain ⟨es, f1, f2, f3, f4⟩ := move_publication h1 t
    rw [takenFrom_cons h1]
    refine ⟨more ++ es, by rw [e1, f1, List.append_assoc], ?_, ?_⟩
    · have : es.reverse = es := by
        rcases es with _ | ⟨e, _ | ⟨_, _⟩⟩
        · rfl
        · rfl
        · simp at f2
      rw [List.reverse_append, List.filterMap_append, List.filterMap_append, e2, this, f3]
    · intro q hq hne
      rcases List.mem_append.1 hq with hq | hq
      · obtain ⟨e, he, h⟩ := f4 q hq hne; exact ⟨e, List.mem_append_right _ he, h⟩
      · obtain ⟨e, he, h⟩ := e3 q hq hne; exact ⟨e, List.mem_append_left _ he, h⟩

theorem moves_snoc {l l' l'' : Log} (vs : List Move) (h : l.moves w F vs = some l') {v : Move} (hv : l'.move w F v = some l'') :
    l.moves w F (vs ++ [v]) = some l'' := by
  induction vs generalizing l with
  | nil => cases h; simp [Log.moves, hv]
  | cons b vs ih =>
    obtain ⟨z, h1, h2⟩ := Option.bind_eq_some_iff.1 h
    simp only [List.cons_append, Log.moves, h1, Option.bind_some]
    exact ih h2

/-- Back to the state after a call on the broker. -/
theorem open_back {l : Log} (h : Log.Open w F l) {e : Broker.Event} {after before : List Broker.Event} (he : l.sys.bh = after ++ e :: before) :
    ∃ l0 vs, Log.Open w F l0 ∧ l0.sys.bh = e :: before ∧ l0.moves w F vs = some l := by
  induction h generalizing after with
  | new => cases after <;> cases he
  | move v hl hv ih =>
    rename_i l l'
    obtain ⟨es, f1, f2, -, -⟩ := move_publication hv []
    cases after with
    | nil => exact ⟨l', [], hl.move v hv, he, rfl⟩
    | cons x after =>
      rw [f1] at he
      rcases es with _ | ⟨x', _ | ⟨_, _⟩⟩
      · obtain ⟨l0, vs, h1, h2, h3⟩ := ih (after := x :: after) he
        exact ⟨l0, vs ++ [v], h1, h2, moves_snoc vs h3 hv⟩
      · obtain ⟨l0, vs, h1, h2, h3⟩ := ih (after := after) (by simpa using (List.cons.inj he).2)
        exact ⟨l0, vs ++ [v], h1, h2, moves_snoc vs h3 hv⟩
      · simp at f2

/-- Inboxes hold what broker and dealer sent out. -/
theorem open_out {l : Log} (h : Log.Open w F l) : OutInv l := by
  induction h with
  | new => exact out_new
  | move v hl hv ih =>
    cases v with
    | act a =>
      refine ih.act (w := w) (a := a) ?_
      cases a <;> simp only [Log.move] at hv <;> first | exact hv | skip
      split at hv
      · cases hv
      · exact hv
    | inject s m =>
      simp only [Log.move] at hv
      split at hv
      · cases hv; exact ⟨ih.bout, ih.dout, ih.src⟩
      · cases hv

/-- **C137** Client `s`, of this library, has subscribed to `t` under ID `i`, has not sent an UNSUBSCRIBE for it, and has read all bytes: then it has read
the SUBSCRIBED, and after it an EVENT for every PUBLISH to `t` that the broker was given since, in this order, with its args and kwargs. -/
theorem C137_every_event {n : Net} (h : OpenRun w k F n) (hb : n.core.bh.length < 2 ^ 53) (s r i : Nat) (hF : F s = false) (o : GoMap) (t : Str)
    (after before : List Broker.Event)
    (he : n.core.bh = after ++ ⟨.receive s (.subscribe r o t), .ok (.msg (.subscribed r i) s)⟩ :: before)
    (hr : ∀ o' t', .subscribe r o' t' ∈ n.core.sent s → t' = t) (hu : ∀ q, .unsubscribe q i ∉ n.core.sent s) (hs : Stays n.core s)
    (hp : ∀ e ∈ after, ∀ p, publisher t e = some p → Stays n.core p) (hd : n.ReadAll s) :
    ∃ pre post, n.got s = pre ++ post ∧ .subscribed r i ∈ pre ∧
      ((after.reverse.filterMap (publication t)).map (onWire (k s).norm)).Sublist (post.filterMap (eventFor i)) := by
  obtain ⟨l, hl, ha⟩ := open_at h
  rw [← ha.sim.bh] at he
  obtain ⟨l0, vs, h1, h2, h3⟩ := open_back hl he
  have hsub : .subscribed r i ∈ l0.inbox s := (open_out h1).bout _ (by rw [h2]; exact .head _) s _ (.head _)
  obtain ⟨more, e1, e2, e3⟩ := takenFrom_bh vs h3 t
  have e4 : more = after := by
    rw [h2, he] at e1
    exact (List.append_cancel_right e1).symm
  subst e4
  obtain ⟨new, g1, g2⟩ := C131_every_event h1 vs h3 (by rwa [ha.sim.bh]) s r i t hsub
    (fun o' t' hm => by
      obtain ⟨m0, hm0, e⟩ := (ha.mem_own hF).1 hm
      cases m0 <;> simp only [received, reduceCtorEq] at e
      cases e
      exact hr _ _ hm0)
    (fun q hm => hu q ((ha.unsubscribe hF).1 hm)) (ha.stays.2 hs)
    (fun q hq hne => by obtain ⟨e, he, hpub⟩ := e3 q hq hne; exact ha.stays.2 (hp e he _ hpub))
  refine ⟨(l0.inbox s).map (received (k s).norm), new.map (received (k s).norm), ?_, subscribed_received.2 hsub, ?_⟩
  · rw [ha.inbox hF hd, g1, List.map_append]
  · rw [eventsFor_received, e2]
    exact g2.map _

/-- **C137** And no others, if all subscriptions to `t` are exact. -/
theorem C137_exactly {n : Net} (h : OpenRun w k F n) (hb : n.core.bh.length < 2 ^ 53) (s r i : Nat) (hF : F s = false) (o : GoMap) (t : Str)
    (after before : List Broker.Event)
    (he : n.core.bh = after ++ ⟨.receive s (.subscribe r o t), .ok (.msg (.subscribed r i) s)⟩ :: before)
    (hr : ∀ o' t', .subscribe r o' t' ∈ n.core.sent s → t' = t)
    (hx : ∀ s' r' o', .subscribe r' o' t ∈ heardFrom F k n s' → o'.text (str "match") ≠ str "prefix" ∧ o'.text (str "match") ≠ str "wildcard")
    (hu : ∀ q, .unsubscribe q i ∉ n.core.sent s) (hs : Stays n.core s)
    (hp : ∀ e ∈ after, ∀ p, publisher t e = some p → Stays n.core p) (hd : n.ReadAll s) :
    ∃ pre post, n.got s = pre ++ post ∧ .subscribed r i ∈ pre ∧
      post.filterMap (eventFor i) = (after.reverse.filterMap (publication t)).map (onWire (k s).norm) := by
  obtain ⟨l, hl, ha⟩ := open_at h
  rw [← ha.sim.bh] at he
  obtain ⟨l0, vs, h1, h2, h3⟩ := open_back hl he
  have hsub : .subscribed r i ∈ l0.inbox s := (open_out h1).bout _ (by rw [h2]; exact .head _) s _ (.head _)
  obtain ⟨more, e1, e2, e3⟩ := takenFrom_bh vs h3 t
  have e4 : more = after := by
    rw [h2, he] at e1
    exact (List.append_cancel_right e1).symm
  subst e4
  obtain ⟨new, g1, g2⟩ := C131_exactly h1 vs h3 (by rwa [ha.sim.bh]) s r i t hsub
    (fun o' t' hm => by
      obtain ⟨m0, hm0, e⟩ := (ha.mem_own hF).1 hm
      cases m0 <;> simp only [received, reduceCtorEq] at e
      cases e
      exact hr _ _ hm0)
    (fun s' r' o' hm => hx s' r' o' (ha.mem_heard.1 hm))
    (fun q hm => hu q ((ha.unsubscribe hF).1 hm)) (ha.stays.2 hs)
    (fun q hq hne => by obtain ⟨e, he, hpub⟩ := e3 q hq hne; exact ha.stays.2 (hp e he _ hpub))
  refine ⟨(l0.inbox s).map (received (k s).norm), new.map (received (k s).norm), ?_, subscribed_received.2 hsub, ?_⟩
  · rw [ha.inbox hF hd, g1, List.map_append]
  · rw [eventsFor_received, e2, g2]

/-! ### An execution with a client that writes garbage -/

/-- Something to do: as before, or a foreign client writes bytes, or the router drops a frame. -/
inductive OpenCmd where
  | cmd (c : Cmd)
  | write (s : Nat) (bytes : Str)
  | drop (s : Nat)

/-- Do it, if it is possible and all messages are within the limits. -/
def openExec (w : Str → Str → Bool) (k : Nat → Kind) (F : Nat → Bool) (n : Net) : OpenCmd → Option Net
  | .cmd (.route s) =>
    match readFrame (n.upBuf s) with
    | none => none
    | some (p, rest) =>
      match (k s).codec.deserialize p with
      | .ok m =>
        if (outs w n.core s m).all fun q => (k q.1).fits q.2 then
          (Sys.act w { n.core with
              up := upd (fun _ => []) s [m], down := fun _ => [], sent := if F s then upd n.core.sent s (m :: n.core.sent s) else n.core.sent }
            (.route s [] [] 0)).map fun y =>
            { n with core := Sys.emptied y, upBuf := upd n.upBuf s rest,
                     downWay := fun s' => n.downWay s' ++ (RawSocket.writeMessages (k s').codec (y.down s')).getD [] }
        else none
      | _ => none
  | .cmd (.send s m) => if F s then none else exec w k n (.send s m)
  | .cmd (.deliver s) => if F s then none else exec w k n (.deliver s)
  | .cmd c => exec w k n c
  | .write s b => if F s ∧ s ∈ n.core.joined then some { n with upWay := upd n.upWay s (n.upWay s ++ b) } else none
  | .drop s =>
    match readFrame (n.upBuf s) with
    | none => none
    | some (p, rest) =>
      match (k s).codec.deserialize p with
      | .err => some { n with upBuf := upd n.upBuf s rest }
      | _ => none

theorem openExec_step {n n' : Net} (h : OpenRun w k F n) (cmd : OpenCmd) (hc : openExec w k F n cmd = some n') :
    OpenStep w (fun s => (k s).codec) (fun s => (k s).Fit) F n n' := by
  have h0 : n.core.up = (fun _ => []) ∧ n.core.down = fun _ => [] := by
    obtain ⟨x, _, hs⟩ := open_at h
    exact ⟨hs.sim.up0, hs.sim.down0⟩
  cases cmd with
  | write s b =>
    simp only [openExec] at hc
    split at hc
    · rename_i e; cases hc; exact .write s b e.1 e.2
    · cases hc
  | drop s =>
    simp only [openExec] at hc
    split at hc
    · cases hc
    · rename_i p rest hr
      split at hc
      · rename_i hm; cases hc; exact .drop s p rest hr hm
      · cases hc
  | cmd c =>
    cases c with
    | join d =>
      obtain ⟨y, e1, e2⟩ := Option.map_eq_some_iff.1 hc
      subst e2
      exact (.admin _ (.inl ⟨d, rfl⟩) e1)
    | leave s =>
      obtain ⟨y, e1, e2⟩ := Option.map_eq_some_iff.1 hc
      subst e2
      exact (.admin _ (.inr (.inl ⟨s, _, _, rfl⟩)) e1)
    | send s m =>
      simp only [openExec] at hc
      split at hc
      · cases hc
      rename_i hF
      simp only [exec] at hc
      split at hc
      · rename_i b hb
        split at hc
        · rename_i hf
          obtain ⟨y, e1, e2⟩ := Option.map_eq_some_iff.1 hc
          subst e2
          exact (.send s m b (by simpa using hF) hb (Kind.fit_of_fits hf) e1)
        · cases hc
      · cases hc
    | up s j =>
      cases hc
      exact (.upArrive s ((n.upWay s).take j) ((n.upWay s).drop j) (List.take_append_drop ..).symm)
    | down s j =>
      cases hc
      exact (.downArrive s ((n.downWay s).take j) ((n.downWay s).drop j) (List.take_append_drop ..).symm)
    | route s =>
      simp only [openExec] at hc
      split at hc
      · cases hc
      rename_i p rest hr
      split at hc
      · rename_i m hm
        split at hc
        · rename_i hf
          obtain ⟨y, e1, e2⟩ := Option.map_eq_some_iff.1 hc
          subst e2
          have hfit : ∀ s' m', m' ∈ y.down s' → (k s').Fit m' := by
            intro s' m' hm'
            have e3 := e1
            simp only [Sys.act, upd, if_true] at e3
            rw [handle_outs e3 s'] at hm'
            simp only [List.nil_append, messagesFor, List.mem_map, List.mem_filter] at hm'
            obtain ⟨q, ⟨hq, e⟩, e'⟩ := hm'
            have := List.all_eq_true.1 hf q (by
              revert hq
              cases m <;> exact id)
            simp only [decide_eq_true_eq] at e
            rw [e, e'] at this
            exact Kind.fit_of_fits this
          refine (.route s [] [] 0 p rest m (fun s' => (RawSocket.writeMessages (k s').codec (y.down s')).getD []) hr hm ?_ hfit ?_)
          · simp only [h0.1, h0.2]
            exact e1
          · intro s'
            exact written_of_fit (k s') _ (hfit s')
        · cases hc
      · cases hc
    | deliver s =>
      simp only [openExec] at hc
      split at hc
      · cases hc
      rename_i hF
      simp only [exec] at hc
      split at hc
      · cases hc
      rename_i p rest hr
      split at hc
      · rename_i m hm
        obtain ⟨y, e1, e2⟩ := Option.map_eq_some_iff.1 hc
        subst e2
        refine (.deliver s p rest m (by simpa using hF) hr hm ?_)
        simp only [h0.1, h0.2]
        exact e1
      · cases hc

/-- Commands one after the other. -/
def openAll (w : Str → Str → Bool) (k : Nat → Kind) (F : Nat → Bool) : Net → List OpenCmd → Option Net
  | n, [] => some n
  | n, c :: cs => (openExec w k F n c).bind fun n' => openAll w k F n' cs

theorem openAll_run {n n' : Net} (h : OpenRun w k F n) (cs : List OpenCmd) (hc : openAll w k F n cs = some n') : OpenRun w k F n' := by
  induction cs generalizing n with
  | nil => cases hc; exact h
  | cons c cs ih =>
    obtain ⟨z, h1, h2⟩ := Option.bind_eq_some_iff.1 hc
    exact ih (h.step (openExec_step h c h1)) h2

/-- The state after these commands, in which client 3 does not use this library. -/
def openAfter (cs : List OpenCmd) : Net := (openAll Dealer.noWild mixed third Net.new cs).getD Net.new

theorem run_openAfter (cs : List OpenCmd) : OpenRun Dealer.noWild mixed third (openAfter cs) := by
  unfold openAfter
  cases h : openAll Dealer.noWild mixed third Net.new cs with
  | none => exact .new
  | some y => exact openAll_run .new cs h

/-- Client 3 writes the frame of a message that this library would not let it send, and the router takes it. -/
def forges (m : Msg) : List OpenCmd :=
  match (mixed 3).codec.serialize m with
  | .ok b => [.write 3 (frame b), .cmd (.up 3 1000), .cmd (.route 3)]
  | _ => []

/-- Client 1 subscribes to "t".  Client 3 writes a frame that holds no message (the router drops it), forged messages, a PUBLISH to "t", and then bytes that are no
frame.  Client 2 publishes to "t" and client 1 reads all. -/
def siege : List OpenCmd :=
  List.map .cmd ([.join (Dealer.who 1), .join (Dealer.who 2), .join (Dealer.who 3)] ++ sends 1 (newSubscribe 1 none (str "t")) ++ [.down 1 100, .deliver 1]) ++
  [.write 3 [0, 0, 0, 2, 0xc1, 0xff], .cmd (.up 3 3), .cmd (.up 3 100), .drop 3] ++
  forges (.unsubscribe 1 1) ++ forges (.event 1 7 (some []) none none) ++ forges (.yield 1 (some []) none none Bin.none) ++
  forges (.publish 1 (some []) (str "t") (some [.bool false]) none) ++
  [.write 3 [7, 7, 7, 7, 7, 7, 7], .cmd (.up 3 100)] ++
  List.map .cmd (sends 2 (newPublish 7 none (str "t") (some [.int .int 300]) none) ++ [.down 1 100, .deliver 1, .deliver 1])

/-- Client 1 has read its SUBSCRIBED and both EVENTs; the router has read four messages from client 3, and the rest of its bytes are stuck. -/
example : ((openAfter siege).got 1).map glance = [(33, 1), (36, 2), (36, 3)] ∧ ((openAfter siege).core.sent 3).map glance = [(16, 1), (0, 0), (36, 7), (0, 0)] ∧
    (openAfter siege).upBuf 3 = [7, 7, 7, 7, 7, 7, 7] ∧ readFrame ((openAfter siege).upBuf 3) = none := by
  decide +kernel

/-- The hypotheses of the theorems hold. -/
example : let n := openAfter siege
    OpenRun Dealer.noWild mixed third n ∧ n.core.bh.length < 2 ^ 53 ∧ n.core.dh.length ≤ 2 ^ 53 ∧ third 1 = false ∧ third 3 = true ∧
      Stays n.core 1 ∧ Stays n.core 2 ∧ Stays n.core 3 ∧ Fresh n.core 1 ∧ (n.TakenAll 1 ∧ n.ReadAll 1) ∧ .subscribed 1 1 ∈ n.got 1 ∧
      (n.core.sent 1).any isUnsubscribe = false ∧ n.core.bh.reverse.filterMap (publisher (str "t")) = [3, 2] := by
  refine ⟨run_openAfter _, by decide +kernel, by decide +kernel, rfl, rfl, stays_of (by decide +kernel), stays_of (by decide +kernel), stays_of (by decide +kernel),
    by unfold Fresh; decide +kernel, ⟨⟨by decide +kernel, by decide +kernel⟩, by decide +kernel, by decide +kernel⟩,
    mem_subscribed (by decide +kernel), by decide +kernel, by decide +kernel⟩

end Wamp.Net
