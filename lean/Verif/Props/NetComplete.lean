import Verif.Props.NetDelivery
import Verif.Props.Agree
import Verif.Props.Answered
import Verif.Spec.NetComplete
/-!
# C118: nothing is missing, over byte streams

C109 to C117 for sessions that use JSON, CBOR or MsgPack over raw sockets.
-/
namespace Wamp.Net
open Wamp Wamp.System Wamp.Spec Wamp.Session

variable {w : Str → Str → Bool} {k : Nat → Kind}

/-! ### What the wire keeps -/

theorem answers_received (norm : Val → Val) (m : Msg) : answers (received norm m) = answers m := by cases m <;> rfl

theorem settles_received {norm : Val → Val} (hn : KeepsFlags norm) (m : Msg) : settles (received norm m) = settles m := by
  cases m <;> first | rfl | simp only [received, settles, flag_onMap hn]

theorem isInvocation_received (norm : Val → Val) (i : Nat) (m : Msg) : isInvocation i (received norm m) ↔ isInvocation i m := by cases m <;> exact .rfl

theorem answersInvocation_received (norm : Val → Val) (i : Nat) (m : Msg) : answersInvocation i (received norm m) ↔ answersInvocation i m := by
  cases m <;> exact .rfl

theorem endsInvocation_received {norm : Val → Val} (hn : KeepsFlags norm) (i : Nat) (m : Msg) :
    endsInvocation i (received norm m) ↔ endsInvocation i m := by
  cases m <;> first | exact .rfl | simp only [received, endsInvocation, flag_onMap hn]

theorem endsCall_received {norm : Val → Val} (hn : KeepsFlags norm) (r : Nat) (m : Msg) : endsCall r (received norm m) ↔ endsCall r m := by
  cases m <;> first | exact .rfl | simp only [received, endsCall, flag_onMap hn]

theorem answeredBy_received {norm norm' : Val → Val} (hn : KeepsFlags norm) {msgs : List Msg} {m : Msg} (h : answeredBy msgs (received norm m)) :
    answeredBy (msgs.map (received norm')) m := by
  cases m with
  | subscribe r o t => obtain ⟨i, h⟩ := h; exact ⟨i, List.mem_map.2 ⟨_, h, rfl⟩⟩
  | publish r o t a kw =>
    intro ha
    obtain ⟨i, h⟩ := h (by rwa [flag_onMap hn])
    exact ⟨i, List.mem_map.2 ⟨_, h, rfl⟩⟩
  | register r o p =>
    rcases h with ⟨g, h⟩ | ⟨d, u, a, kw, h⟩
    · exact .inl ⟨g, List.mem_map.2 ⟨_, h, rfl⟩⟩
    · exact .inr ⟨_, _, _, _, List.mem_map.2 ⟨_, h, rfl⟩⟩
  | _ => trivial

/-- `l` is the state `n` at the message level. -/
structure At (k : Nat → Kind) (n : Net) (l : Log) : Prop where
  sim : Sim (fun s => (k s).codec) (fun s => (k s).norm) (fun s => (k s).Fit) n l.sys
  got : ∀ s, n.got s = (l.got s).map (received (k s).norm)

theorem run_at {n : Net} (h : Run w k n) : ∃ l, Log.Reach w l ∧ At k n l := by
  obtain ⟨l, h1, h2, h3⟩ := run_log h
  exact ⟨l, h1, h2, h3⟩

theorem At.down {n : Net} {l : Log} (h : At k n l) {s : Nat} (hs : n.ReadAll s) : l.sys.down s = [] := by
  have := (h.sim.down s).2
  rw [hs.1, hs.2] at this
  exact written_nil _ this

theorem At.up {n : Net} {l : Log} (h : At k n l) {s : Nat} (hs : n.TakenAll s) : l.sys.up s = [] := by
  obtain ⟨us, h1, -, h3⟩ := h.sim.up s
  rw [hs.1, hs.2] at h3
  rw [h1, written_nil _ h3]; rfl

theorem At.inbox {n : Net} {l : Log} (h : At k n l) {s : Nat} (hs : n.ReadAll s) : n.got s = (l.inbox s).map (received (k s).norm) := by
  rw [Log.inbox, h.down hs, List.append_nil, h.got]

theorem At.stays {n : Net} {l : Log} (h : At k n l) {s : Nat} : Stays l.sys s ↔ Stays n.core s := by
  unfold Stays; rw [h.sim.bh, h.sim.dh]

theorem At.mem_sent {n : Net} {l : Log} (h : At k n l) {s : Nat} {m : Msg} : m ∈ l.sys.sent s ↔ ∃ m0 ∈ n.core.sent s, received (k s).norm m0 = m := by
  rw [h.sim.sent, List.mem_map]

theorem At.unsubscribe {n : Net} {l : Log} (h : At k n l) {s q i : Nat} : .unsubscribe q i ∈ l.sys.sent s ↔ .unsubscribe q i ∈ n.core.sent s := by
  rw [h.mem_sent]
  constructor
  · rintro ⟨m0, h1, h2⟩
    cases m0 <;> simp only [received, reduceCtorEq] at h2
    cases h2; exact h1
  · intro h1; exact ⟨_, h1, rfl⟩

theorem At.unregister {n : Net} {l : Log} (h : At k n l) {s q i : Nat} : .unregister q i ∈ l.sys.sent s ↔ .unregister q i ∈ n.core.sent s := by
  rw [h.mem_sent]
  constructor
  · rintro ⟨m0, h1, h2⟩
    cases m0 <;> simp only [received, reduceCtorEq] at h2
    cases h2; exact h1
  · intro h1; exact ⟨_, h1, rfl⟩

theorem At.heard {n : Net} {l : Log} (h : At k n l) {s : Nat} {m : Msg} : m ∈ l.sys.sent s ↔ m ∈ heard k n s := by
  rw [h.mem_sent, mem_heard]

theorem mem_received {norm : Val → Val} {l : List Msg} {m : Msg} (h : ∀ m', received norm m' = m → m' = m) (hm : m ∈ l.map (received norm)) : m ∈ l := by
  obtain ⟨m', h1, h2⟩ := List.mem_map.1 hm
  rwa [← h m' h2]

theorem subscribed_received {norm : Val → Val} {l : List Msg} {r i : Nat} : .subscribed r i ∈ l.map (received norm) ↔ .subscribed r i ∈ l :=
  ⟨mem_received fun m' e => by cases m' <;> simp only [received, reduceCtorEq] at e; exact e, fun h => List.mem_map.2 ⟨_, h, rfl⟩⟩

theorem unsubscribed_received {norm : Val → Val} {l : List Msg} {r : Nat} : .unsubscribed r ∈ l.map (received norm) ↔ .unsubscribed r ∈ l :=
  ⟨mem_received fun m' e => by cases m' <;> simp only [received, reduceCtorEq] at e; exact e, fun h => List.mem_map.2 ⟨_, h, rfl⟩⟩

theorem registered_received {norm : Val → Val} {l : List Msg} {r i : Nat} : .registered r i ∈ l.map (received norm) ↔ .registered r i ∈ l :=
  ⟨mem_received fun m' e => by cases m' <;> simp only [received, reduceCtorEq] at e; exact e, fun h => List.mem_map.2 ⟨_, h, rfl⟩⟩

theorem unregistered_received {norm : Val → Val} {l : List Msg} {r : Nat} : .unregistered r ∈ l.map (received norm) ↔ .unregistered r ∈ l :=
  ⟨mem_received fun m' e => by cases m' <;> simp only [received, reduceCtorEq] at e; exact e, fun h => List.mem_map.2 ⟨_, h, rfl⟩⟩

/-! ### Requests are answered, once; client and router agree -/

/-- **C118** Once the router has read all bytes of a client that it has not removed, and the client all bytes of the router, the client has
read the answers to all its SUBSCRIBEs, REGISTERs and PUBLISHes that ask for one. -/
theorem C118_requests_answered {n : Net} (h : Run w k n) (hb : n.core.bh.length ≤ 2 ^ 53) (s : Nat) (hs : Stays n.core s) (hu : n.TakenAll s)
    (hd : n.ReadAll s) (m : Msg) (hm : m ∈ n.core.sent s) : answeredBy (n.got s) m := by
  obtain ⟨l, hl, ha⟩ := run_at h
  rw [ha.inbox hd]
  rcases C111_requests_answered hl (by rwa [ha.sim.bh]) s (ha.stays.2 hs) _ (ha.mem_sent.2 ⟨m, hm, rfl⟩) with h1 | h1
  · rw [ha.up hu] at h1; cases h1
  · exact answeredBy_received (k s).carried.flags h1

/-- **C118** A client reads no answer to a request after the one that settles it. -/
theorem C118_settled_once {n : Net} (h : Run w k n) (hb : n.core.bh.length ≤ 2 ^ 53) (s : Nat) (hf : Fresh n.core s) (pre post : List Msg) (m : Msg)
    (q : Nat × Nat) (hm : n.got s = pre ++ m :: post) (hq : settles m = some q) :
    (∃ m' ∈ n.core.sent s, request m' = some q) ∧ ∀ m' ∈ post, answers m' ≠ some q := by
  obtain ⟨l, hl, ha⟩ := run_at h
  rw [ha.got] at hm
  obtain ⟨pre0, rest, e, rfl, e2⟩ := List.map_eq_append_iff.1 hm
  obtain ⟨m0, post0, rfl, rfl, rfl⟩ := List.map_eq_cons_iff.1 e2
  rw [settles_received (k s).carried.flags] at hq
  obtain ⟨⟨m', h1, h2⟩, h3⟩ := C116_settled_once hl (by rwa [ha.sim.bh]) s (fresh_sim ha.sim hf) pre0 (post0 ++ l.sys.down s) m0 q
    (by rw [Log.inbox, e]; simp) hq
  refine ⟨?_, ?_⟩
  · obtain ⟨m1, g1, rfl⟩ := ha.mem_sent.1 h1
    exact ⟨m1, g1, by rwa [request_received] at h2⟩
  · intro m' hm'
    obtain ⟨m1, g1, rfl⟩ := List.mem_map.1 hm'
    rw [answers_received]
    exact h3 m1 (List.mem_append_left _ g1)

/-- **C118** When a client has read all bytes of the router, its `Session` accepts the EVENTs of exactly the subscriptions the broker has for
it. -/
theorem C118_subscriptions_agree {n : Net} (h : Run w k n) (hb : n.core.bh.length ≤ 2 ^ 53) (s : Nat) (hf : Fresh n.core s) (hs : Stays n.core s)
    (hd : n.ReadAll s) (i p : Nat) (d : GoMap) (a : GoSlice) (kw : GoMap) :
    Accepts (n.core.client s) (.event i p d a kw) ↔ ∃ t, Broker.current n.core.bh s t = some i := by
  obtain ⟨l, hl, ha⟩ := run_at h
  rw [← ha.sim.client, ← ha.sim.bh]
  exact C115_subscriptions_agree (log_sys hl) (by rwa [ha.sim.bh]) s (fresh_sim ha.sim hf) (ha.stays.2 hs) (ha.down hd) i p d a kw

/-! ### EVENTs and INVOCATIONs only while subscribed or registered -/

/-- **C118** Before an EVENT the client has read a SUBSCRIBED for its subscription, and since then no UNSUBSCRIBED for it. -/
theorem C118_events_while_subscribed {n : Net} (h : Run w k n) (hb : n.core.bh.length ≤ 2 ^ 53) (s : Nat)
    (hq : ∀ q i j, .unsubscribe q i ∈ n.core.sent s → .unsubscribe q j ∈ n.core.sent s → i = j)
    (pre post : List Msg) (i p : Nat) (d : GoMap) (a : GoSlice) (kw : GoMap) (he : n.got s = pre ++ .event i p d a kw :: post) :
    ∃ earlier r between, pre = earlier ++ .subscribed r i :: between ∧ ∀ q, .unsubscribed q ∈ between → .unsubscribe q i ∉ n.core.sent s := by
  obtain ⟨l, hl, ha⟩ := run_at h
  rw [ha.got] at he
  obtain ⟨pre0, rest, e, rfl, e2⟩ := List.map_eq_append_iff.1 he
  obtain ⟨m0, post0, rfl, e3, rfl⟩ := List.map_eq_cons_iff.1 e2
  cases m0 <;> simp only [received, reduceCtorEq] at e3
  cases e3
  obtain ⟨earlier, r, between, rfl, h2⟩ := C113_events_while_subscribed hl (by rwa [ha.sim.bh]) s
    (fun q i j h1 h2 => hq q i j (ha.unsubscribe.1 h1) (ha.unsubscribe.1 h2)) pre0 (post0 ++ l.sys.down s) _ _ _ _ _ (by rw [Log.inbox, e, List.append_assoc]; rfl)
  refine ⟨earlier.map (received (k s).norm), r, between.map (received (k s).norm), by simp [received], fun q h => ?_⟩
  rw [← ha.unsubscribe]
  exact h2 q (unsubscribed_received.1 h)

/-- **C118** Before an INVOCATION the client has read a REGISTERED for its registration, and since then no UNREGISTERED for it; if the
procedures of this client are registered with the "single" policy only. -/
theorem C118_invocations_while_registered {n : Net} (h : Run w k n) (hb : n.core.bh.length ≤ 2 ^ 53) (hd : n.core.dh.length ≤ 2 ^ 53) (s : Nat)
    (hq : ∀ q i j, .unregister q i ∈ n.core.sent s → .unregister q j ∈ n.core.sent s → i = j)
    (hsingle : ∀ r o p, .register r o p ∈ heard k n s → ∀ s' r' o', .register r' o' p ∈ heard k n s' →
      o'.text (str "invoke") = [] ∨ o'.text (str "invoke") = str "single")
    (pre post : List Msg) (g i : Nat) (d : GoMap) (a : GoSlice) (kw : GoMap) (bin : Bin) (he : n.got s = pre ++ .invocation i g d a kw bin :: post) :
    ∃ earlier r between, pre = earlier ++ .registered r g :: between ∧ ∀ q, .unregistered q ∈ between → .unregister q g ∉ n.core.sent s := by
  obtain ⟨l, hl, ha⟩ := run_at h
  rw [ha.got] at he
  obtain ⟨pre0, rest, e, rfl, e2⟩ := List.map_eq_append_iff.1 he
  obtain ⟨m0, post0, rfl, e3, rfl⟩ := List.map_eq_cons_iff.1 e2
  cases m0 <;> simp only [received, reduceCtorEq] at e3
  cases e3
  obtain ⟨earlier, r, between, rfl, h2⟩ := C114_invocations_while_registered_partial hl (by rwa [ha.sim.bh]) (by rwa [ha.sim.dh]) s
    (fun q i j h1 h2 => hq q i j (ha.unregister.1 h1) (ha.unregister.1 h2))
    (fun r o p h1 s' r' o' h2 => hsingle r o p (ha.heard.1 h1) s' r' o' (ha.heard.1 h2))
    pre0 (post0 ++ l.sys.down s) _ _ _ _ _ _ (by rw [Log.inbox, e, List.append_assoc]; rfl)
  refine ⟨earlier.map (received (k s).norm), r, between.map (received (k s).norm), by simp [received], fun q h => ?_⟩
  rw [← ha.unregister]
  exact h2 q (unregistered_received.1 h)

/-! ### No EVENT is missed -/

/-- What an action adds to the calls on the broker, and the PUBLISHes among them. -/
theorem act_publication {l l' : Log} {a : Action} (h : l.act w a = some l') (t : Str) :
    ∃ es, l'.sys.bh = es ++ l.sys.bh ∧ es.length ≤ 1 ∧
      es.filterMap (publication t) = (l.taken w [a]).filterMap (fun q => publishedTo t q.2) ∧
      ∀ q ∈ l.taken w [a], publishedTo t q.2 ≠ none → ∃ e ∈ es, publisher t e = some q.1 := by
  obtain ⟨y, h1, e⟩ := Option.map_eq_some_iff.1 h
  simp only [Log.taken, h, List.append_nil]
  subst e
  have admin : ∀ {e : Broker.Event}, y.bh = e :: l.sys.bh → publication t e = none →
      ∃ es, y.bh = es ++ l.sys.bh ∧ es.length ≤ 1 ∧ es.filterMap (publication t) = ([] : List (Nat × Msg)).filterMap (fun q => publishedTo t q.2) ∧
      ∀ q ∈ ([] : List (Nat × Msg)), publishedTo t q.2 ≠ none → ∃ e ∈ es, publisher t e = some q.1 := by
    intro e h1 h2
    exact ⟨[e], h1, Nat.le_refl _, by simp [h2], fun _ h => nomatch h⟩
  cases a with
  | join d =>
    simp only [Sys.act] at h1
    split at h1
    · cases h1
    · obtain ⟨_, rfl⟩ := onDealer_some h1; exact admin rfl rfl
  | leave s o o' => simp only [Sys.act] at h1; obtain ⟨_, rfl⟩ := onDealer_some h1; exact admin rfl rfl
  | disclose p c => simp only [Sys.act] at h1; obtain ⟨_, rfl⟩ := onDealer_some h1; exact admin rfl rfl
  | send s data m =>
    simp only [Sys.act] at h1
    split at h1
    · split at h1
      · cases h1; exact ⟨[], rfl, Nat.zero_le _, rfl, fun _ h => nomatch h⟩
      · cases h1
    · cases h1
  | deliver s =>
    simp only [Sys.act] at h1
    split at h1
    · cases h1
    · cases h1; exact ⟨[], rfl, Nat.zero_le _, rfl, fun _ h => nomatch h⟩
  | route p wo so rnd =>
    simp only [Sys.act] at h1
    cases hup : l.sys.up p with
    | nil => rw [hup] at h1; cases h1
    | cons m rest =>
      rw [hup] at h1
      simp only [hup, List.take_succ_cons, List.take_zero, List.map_cons, List.map_nil]
      have dealer : ∀ {x : Sys} {op : Dealer.Op} {out}, x.bh = l.sys.bh → ((x.onDealer w op).map fun v => v.post out) = some y → y.bh = l.sys.bh := by
        intro x op out hx h
        obtain ⟨v, g1, rfl⟩ := Option.map_eq_some_iff.1 h
        obtain ⟨_, rfl⟩ := onDealer_some g1
        exact hx
      cases m with
      | publish q o t' a kw =>
        cases h1
        refine ⟨[_], rfl, Nat.le_refl _, ?_, ?_⟩
        · by_cases e : t' = t <;> simp [publication, publishedTo, e]
        · intro q hq hne
          rcases List.mem_singleton.1 hq with rfl
          refine ⟨_, .head _, ?_⟩
          simp only [publishedTo, publisher] at hne ⊢
          split at hne
          · rename_i e; simp [e]
          · exact absurd rfl hne
      | subscribe => cases h1; exact ⟨[_], rfl, Nat.le_refl _, rfl, fun q hq hne => absurd (by rw [List.mem_singleton.1 hq]; rfl) hne⟩
      | unsubscribe => cases h1; exact ⟨[_], rfl, Nat.le_refl _, rfl, fun q hq hne => absurd (by rw [List.mem_singleton.1 hq]; rfl) hne⟩
      | call => simp only [Sys.handle] at h1; exact ⟨[], dealer (by rfl) h1, Nat.zero_le _, rfl, fun q hq hne => absurd (by rw [List.mem_singleton.1 hq]; rfl) hne⟩
      | yield => simp only [Sys.handle] at h1; exact ⟨[], dealer (by rfl) h1, Nat.zero_le _, rfl, fun q hq hne => absurd (by rw [List.mem_singleton.1 hq]; rfl) hne⟩
      | register => simp only [Sys.handle] at h1; exact ⟨[], dealer (by rfl) h1, Nat.zero_le _, rfl, fun q hq hne => absurd (by rw [List.mem_singleton.1 hq]; rfl) hne⟩
      | unregister => simp only [Sys.handle] at h1; exact ⟨[], dealer (by rfl) h1, Nat.zero_le _, rfl, fun q hq hne => absurd (by rw [List.mem_singleton.1 hq]; rfl) hne⟩
      | error => simp only [Sys.handle] at h1; exact ⟨[], dealer (by rfl) h1, Nat.zero_le _, rfl, fun q hq hne => absurd (by rw [List.mem_singleton.1 hq]; rfl) hne⟩
      | _ => cases h1; exact ⟨[], rfl, Nat.zero_le _, rfl, fun q hq hne => absurd (by rw [List.mem_singleton.1 hq]; rfl) hne⟩

theorem taken_cons {l z : Log} {a : Action} (h : l.act w a = some z) (as : List Action) : l.taken w (a :: as) = l.taken w [a] ++ z.taken w as := by
  simp only [Log.taken, h, List.append_nil]

/-- The PUBLISHes that the router takes are those the broker is given. -/
theorem taken_bh {l l' : Log} (as : List Action) (h : l.run w as = some l') (t : Str) :
    ∃ more, l'.sys.bh = more ++ l.sys.bh ∧ more.reverse.filterMap (publication t) = (l.taken w as).filterMap (fun q => publishedTo t q.2) ∧
      ∀ q ∈ l.taken w as, publishedTo t q.2 ≠ none → ∃ e ∈ more, publisher t e = some q.1 := by
  induction as generalizing l with
  | nil => cases h; exact ⟨[], rfl, rfl, fun _ h => nomatch h⟩
  | cons a as ih =>
    obtain ⟨z, h1, h2⟩ := Option.bind_eq_some_iff.1 h
    obtain ⟨more, e1, e2, e3⟩ := ih h2
    obtain ⟨es, f1, f2, f3, f4⟩ := act_publication h1 t
    rw [taken_cons h1]
    refine ⟨more ++ es, by rw [e1, f1, List.append_assoc], ?_, ?_⟩
    · have : es.reverse = es := by
        rcases es with _ | ⟨e, _ | ⟨_, _⟩⟩
        · rfl
        · rfl
        · simp at f2
      rw [List.reverse_append, List.filterMap_append, List.filterMap_append, e2, this, f3]
    · intro q hq hne
      rcases List.mem_append.1 hq with hq | hq
      · obtain ⟨e, he, h⟩ := f4 q hq hne; exact ⟨e, List.mem_append_right _ he, h⟩
      · obtain ⟨e, he, h⟩ := e3 q hq hne; exact ⟨e, List.mem_append_left _ he, h⟩

theorem run_snoc {l l' l'' : Log} (as : List Action) (h : l.run w as = some l') {a : Action} (ha : l'.act w a = some l'') : l.run w (as ++ [a]) = some l'' := by
  induction as generalizing l with
  | nil => cases h; simp [Log.run, ha]
  | cons b as ih =>
    obtain ⟨z, h1, h2⟩ := Option.bind_eq_some_iff.1 h
    simp only [List.cons_append, Log.run, h1, Option.bind_some]
    exact ih h2

/-- Back to the state after a call on the broker. -/
theorem reach_back {l : Log} (h : Log.Reach w l) {e : Broker.Event} {after before : List Broker.Event} (he : l.sys.bh = after ++ e :: before) :
    ∃ l0 as, Log.Reach w l0 ∧ l0.sys.bh = e :: before ∧ l0.run w as = some l := by
  induction h generalizing after with
  | new => cases after <;> cases he
  | act a hl ha ih =>
    rename_i l l'
    obtain ⟨es, f1, f2, -, -⟩ := act_publication ha []
    cases after with
    | nil => exact ⟨l', [], hl.act a ha, he, rfl⟩
    | cons x after =>
      rw [f1] at he
      rcases es with _ | ⟨x', _ | ⟨_, _⟩⟩
      · obtain ⟨l0, as, h1, h2, h3⟩ := ih (after := x :: after) he
        exact ⟨l0, as ++ [a], h1, h2, run_snoc as h3 ha⟩
      · obtain ⟨l0, as, h1, h2, h3⟩ := ih (after := after) (by simpa using (List.cons.inj he).2)
        exact ⟨l0, as ++ [a], h1, h2, run_snoc as h3 ha⟩
      · simp at f2

/-- What a client reads as args and kwargs when the router has read `c`. -/
def onWire (norm : Val → Val) (c : GoSlice × GoMap) : GoSlice × GoMap := (onArgs norm c.1 c.2, onMap norm c.2)

theorem eventFor_received (norm : Val → Val) (i : Nat) (m : Msg) : eventFor i (received norm m) = (eventFor i m).map (onWire norm) := by
  cases m <;> simp only [received, eventFor, Option.map_none]
  split <;> rfl

theorem eventsFor_received (norm : Val → Val) (i : Nat) (l : List Msg) : (l.map (received norm)).filterMap (eventFor i) = (l.filterMap (eventFor i)).map (onWire norm) := by
  induction l with
  | nil => rfl
  | cons m l ih =>
    simp only [List.map_cons, List.filterMap_cons, eventFor_received]
    cases eventFor i m <;> simp [ih]

/-- **C118** Client `s` has subscribed to `t` under ID `i`, has not sent an UNSUBSCRIBE for it, and has read all bytes: then it has read the
SUBSCRIBED, and after it an EVENT for every PUBLISH to `t` that the broker was given since, in this order, with its args and kwargs. -/
theorem C118_every_event {n : Net} (h : Run w k n) (hb : n.core.bh.length ≤ 2 ^ 53) (s r i : Nat) (o : GoMap) (t : Str) (after before : List Broker.Event)
    (he : n.core.bh = after ++ ⟨.receive s (.subscribe r o t), .ok (.msg (.subscribed r i) s)⟩ :: before)
    (hr : ∀ o' t', .subscribe r o' t' ∈ n.core.sent s → t' = t) (hu : ∀ q, .unsubscribe q i ∉ n.core.sent s) (hs : Stays n.core s)
    (hp : ∀ e ∈ after, ∀ p, publisher t e = some p → Stays n.core p) (hd : n.ReadAll s) :
    ∃ pre post, n.got s = pre ++ post ∧ .subscribed r i ∈ pre ∧
      ((after.reverse.filterMap (publication t)).map (onWire (k s).norm)).Sublist (post.filterMap (eventFor i)) := by
  obtain ⟨l, hl, ha⟩ := run_at h
  rw [← ha.sim.bh] at he
  obtain ⟨l0, as, h1, h2, h3⟩ := reach_back hl he
  have hsub : .subscribed r i ∈ l0.inbox s := (log_out h1).bout _ (by rw [h2]; exact .head _) s _ (.head _)
  obtain ⟨more, e1, e2, e3⟩ := taken_bh as h3 t
  have e4 : more = after := by
    rw [h2, he] at e1
    exact (List.append_cancel_right e1).symm
  subst e4
  obtain ⟨new, g1, g2⟩ := C109_every_event h1 as h3 (by rwa [ha.sim.bh]) s r i t hsub
    (fun o' t' hm => by
      obtain ⟨m0, hm0, e⟩ := ha.mem_sent.1 hm
      cases m0 <;> simp only [received, reduceCtorEq] at e
      cases e
      exact hr _ _ hm0)
    (fun q hm => hu q (ha.unsubscribe.1 hm)) (ha.stays.2 hs)
    (fun q hq hne => by obtain ⟨e, he, hpub⟩ := e3 q hq hne; exact ha.stays.2 (hp e he _ hpub))
  refine ⟨(l0.inbox s).map (received (k s).norm), new.map (received (k s).norm), ?_, subscribed_received.2 hsub, ?_⟩
  · rw [ha.inbox hd, g1, List.map_append]
  · rw [eventsFor_received, e2]
    exact g2.map _

/-- **C118** And no others, if all subscriptions to `t` are exact. -/
theorem C118_exactly {n : Net} (h : Run w k n) (hb : n.core.bh.length ≤ 2 ^ 53) (s r i : Nat) (o : GoMap) (t : Str) (after before : List Broker.Event)
    (he : n.core.bh = after ++ ⟨.receive s (.subscribe r o t), .ok (.msg (.subscribed r i) s)⟩ :: before)
    (hr : ∀ o' t', .subscribe r o' t' ∈ n.core.sent s → t' = t)
    (hx : ∀ s' r' o', .subscribe r' o' t ∈ heard k n s' → o'.text (str "match") ≠ str "prefix" ∧ o'.text (str "match") ≠ str "wildcard")
    (hu : ∀ q, .unsubscribe q i ∉ n.core.sent s) (hs : Stays n.core s)
    (hp : ∀ e ∈ after, ∀ p, publisher t e = some p → Stays n.core p) (hd : n.ReadAll s) :
    ∃ pre post, n.got s = pre ++ post ∧ .subscribed r i ∈ pre ∧
      post.filterMap (eventFor i) = (after.reverse.filterMap (publication t)).map (onWire (k s).norm) := by
  obtain ⟨l, hl, ha⟩ := run_at h
  rw [← ha.sim.bh] at he
  obtain ⟨l0, as, h1, h2, h3⟩ := reach_back hl he
  have hsub : .subscribed r i ∈ l0.inbox s := (log_out h1).bout _ (by rw [h2]; exact .head _) s _ (.head _)
  obtain ⟨more, e1, e2, e3⟩ := taken_bh as h3 t
  have e4 : more = after := by
    rw [h2, he] at e1
    exact (List.append_cancel_right e1).symm
  subst e4
  obtain ⟨new, g1, g2⟩ := C109_exactly h1 as h3 (by rwa [ha.sim.bh]) s r i t hsub
    (fun o' t' hm => by
      obtain ⟨m0, hm0, e⟩ := ha.mem_sent.1 hm
      cases m0 <;> simp only [received, reduceCtorEq] at e
      cases e
      exact hr _ _ hm0)
    (fun s' r' o' hm => hx s' r' o' (ha.heard.1 hm))
    (fun q hm => hu q (ha.unsubscribe.1 hm)) (ha.stays.2 hs)
    (fun q hq hne => by obtain ⟨e, he, hpub⟩ := e3 q hq hne; exact ha.stays.2 (hp e he _ hpub))
  refine ⟨(l0.inbox s).map (received (k s).norm), new.map (received (k s).norm), ?_, subscribed_received.2 hsub, ?_⟩
  · rw [ha.inbox hd, g1, List.map_append]
  · rw [eventsFor_received, e2, g2]

/-! ### Calls finish -/

theorem polite_at {n : Net} (h : Polite w (fun s => (k s).codec) (fun s => (k s).Fit) n) : ∃ l, Log.Polite w l ∧ At k n l := by
  induction h with
  | new => exact ⟨Log.new, .new, ⟨rfl, rfl, rfl, rfl, rfl, rfl, rfl, rfl, fun _ => rfl, fun _ => ⟨[], rfl, by simp, .nil⟩, fun _ => ⟨by simp [Log.new, Sys.new], .nil⟩⟩,
      fun _ => rfl⟩
  | step _ hp hs ih =>
    rename_i n n'
    obtain ⟨l, h1, h2⟩ := ih
    obtain ⟨x', got', h3, h4, h5⟩ := sim_act (norm := fun s => (k s).norm) (fun s => (k s).carried) h2.sim h2.got hs
    refine ⟨⟨x', got'⟩, ?_, h4, h5⟩
    rcases h3 with ⟨rfl, rfl, -⟩ | ⟨a, h3, h6⟩
    · exact h1
    · refine h1.act a ?_ h3
      cases a with
      | send s data m =>
        intro i hi
        obtain ⟨m0, rfl, h7⟩ := h6.1 s data m rfl
        obtain ⟨m', g1, g2⟩ := hp s m0 h7 i ((answersInvocation_received _ _ _).1 hi)
        rw [h2.got] at g1
        obtain ⟨m1, g3, rfl⟩ := List.mem_map.1 g1
        exact ⟨m1, g3, (isInvocation_received _ _ _).1 g2⟩
      | _ => trivial

theorem polite_run {n : Net} (h : Polite w (fun s => (k s).codec) (fun s => (k s).Fit) n) : Run w k n := by
  induction h with
  | new => exact .new
  | step _ _ hs ih => exact .step ih hs

theorem At.served {n : Net} {l : Log} (ha : At k n l) (hserved : n.Served) : l.Served := by
  rintro c i ⟨m, g1, g2⟩
  obtain ⟨p, m', g3, g4⟩ := hserved c i ⟨received (k c).norm m, by rw [ha.got]; exact List.mem_map_of_mem g1, (isInvocation_received _ _ _).2 g2⟩
  exact ⟨p, _, ha.mem_sent.2 ⟨m', g3, rfl⟩, (endsInvocation_received (k p).carried.flags _ _).2 g4⟩

/-- **C118** If clients answer only INVOCATIONs that they have read, and have answered all, and no bytes are under way: then every client that
called has read the final answer.  (Callers and callees that the router removed, and clients that registered and were removed, apart.) -/
theorem C118_calls_finish {n : Net} (h : Polite w (fun s => (k s).codec) (fun s => (k s).Fit) n) (hb : n.core.bh.length ≤ 2 ^ 53)
    (hd : n.core.dh.length ≤ 2 ^ 53) (hidle : n.Idle) (hserved : n.Served) (hreg : ∀ c r o p, .register r o p ∈ n.core.sent c → Stays n.core c)
    (s : Nat) (hs : Stays n.core s) (r : Nat) (o : GoMap) (p : Str) (a : GoSlice) (kw : GoMap) (bin : Bin) (hm : .call r o p a kw bin ∈ n.core.sent s) :
    ∃ m ∈ n.got s, endsCall r m := by
  obtain ⟨l, hl, ha⟩ := polite_at h
  obtain ⟨m, h1, h2⟩ := C112_calls_finish_partial hl (by rwa [ha.sim.bh]) (by rwa [ha.sim.dh]) (fun s => ⟨ha.up (hidle s).1, ha.down (hidle s).2⟩)
    (ha.served hserved)
    (fun c r o p hm => by
      obtain ⟨m0, hm0, e⟩ := ha.mem_sent.1 hm
      cases m0 <;> simp only [received, reduceCtorEq] at e
      cases e
      exact ha.stays.2 (hreg _ _ _ _ hm0))
    s (ha.stays.2 hs) r _ _ _ _ _ (ha.mem_sent.2 ⟨_, hm, rfl⟩)
  exact ⟨_, by rw [ha.got]; exact List.mem_map_of_mem h1, (endsCall_received (k s).carried.flags _ _).2 h2⟩

/-- **C118** The same if clients that registered were removed, but nobody registered a procedure twice or unregistered one that others were
registered for too. -/
theorem C118_calls_finish_leaving {n : Net} (h : Polite w (fun s => (k s).codec) (fun s => (k s).Fit) n) (hb : n.core.bh.length ≤ 2 ^ 53)
    (hd : n.core.dh.length ≤ 2 ^ 53) (hidle : n.Idle) (hserved : n.Served) (ht : ∀ p, Dealer.Tame p n.core.dh)
    (s : Nat) (hs : Stays n.core s) (r : Nat) (o : GoMap) (p : Str) (a : GoSlice) (kw : GoMap) (bin : Bin) (hm : .call r o p a kw bin ∈ n.core.sent s) :
    ∃ m ∈ n.got s, endsCall r m := by
  obtain ⟨l, hl, ha⟩ := polite_at h
  obtain ⟨m, h1, h2⟩ := C112_clients_leave_partial hl (by rwa [ha.sim.bh]) (by rwa [ha.sim.dh]) (fun s => ⟨ha.up (hidle s).1, ha.down (hidle s).2⟩)
    (ha.served hserved) (by rwa [ha.sim.dh]) s (ha.stays.2 hs) r _ _ _ _ _ (ha.mem_sent.2 ⟨_, hm, rfl⟩)
  exact ⟨_, by rw [ha.got]; exact List.mem_map_of_mem h1, (endsCall_received (k s).carried.flags _ _).2 h2⟩

/-! ### Procedures stay callable -/

theorem act_dealer {l l' : Log} {a : Action} (h : l.act w a = some l') :
    l'.sys.dh = l.sys.dh ∨ ∃ e, l'.sys.dh = e :: l.sys.dh ∧
      ∀ s m wo rnd, e.op = .receive s m wo rnd → ∃ so rest, a = .route s wo so rnd ∧ l.sys.up s = m :: rest := by
  obtain ⟨y, h1, rfl⟩ := Option.map_eq_some_iff.1 h
  cases a with
  | join d =>
    simp only [Sys.act] at h1
    split at h1
    · cases h1
    · obtain ⟨_, rfl⟩ := onDealer_some h1; exact .inr ⟨_, rfl, fun _ _ _ _ e => nomatch e⟩
  | leave s o o' => simp only [Sys.act] at h1; obtain ⟨_, rfl⟩ := onDealer_some h1; exact .inr ⟨_, rfl, fun _ _ _ _ e => nomatch e⟩
  | disclose p c => simp only [Sys.act] at h1; obtain ⟨_, rfl⟩ := onDealer_some h1; exact .inr ⟨_, rfl, fun _ _ _ _ e => nomatch e⟩
  | send s data m =>
    simp only [Sys.act] at h1
    split at h1
    · split at h1
      · cases h1; exact .inl rfl
      · cases h1
    · cases h1
  | deliver s =>
    simp only [Sys.act] at h1
    split at h1
    · cases h1
    · cases h1; exact .inl rfl
  | route p wo so rnd =>
    simp only [Sys.act] at h1
    cases hup : l.sys.up p with
    | nil => rw [hup] at h1; cases h1
    | cons m rest =>
      rw [hup] at h1
      have dealer : ∀ {x : Sys} {out}, x.dh = l.sys.dh → ((x.onDealer w (.receive p m wo rnd)).map fun v => v.post out) = some y →
          ∃ e, y.dh = e :: l.sys.dh ∧ ∀ s m wo' rnd', e.op = .receive s m wo' rnd' → ∃ so' rest, Action.route p wo so rnd = .route s wo' so' rnd' ∧ l.sys.up s = m :: rest := by
        intro x out hx h
        obtain ⟨v, g1, rfl⟩ := Option.map_eq_some_iff.1 h
        obtain ⟨_, rfl⟩ := onDealer_some g1
        refine ⟨_, congrArg _ hx, ?_⟩
        intro s m' wo' rnd' e
        cases e
        exact ⟨so, rest, rfl, hup⟩
      cases m with
      | call => simp only [Sys.handle] at h1; exact .inr (dealer (by rfl) h1)
      | yield => simp only [Sys.handle] at h1; exact .inr (dealer (by rfl) h1)
      | register => simp only [Sys.handle] at h1; exact .inr (dealer (by rfl) h1)
      | unregister => simp only [Sys.handle] at h1; exact .inr (dealer (by rfl) h1)
      | error => simp only [Sys.handle] at h1; exact .inr (dealer (by rfl) h1)
      | _ => cases h1; exact .inl rfl

/-- Back to the states before and after a call on the dealer. -/
theorem reach_backD {l : Log} (h : Log.Reach w l) {e : Dealer.Event} {after before : List Dealer.Event} (he : l.sys.dh = after ++ e :: before) :
    ∃ l0 a l1 as, Log.Reach w l0 ∧ l0.act w a = some l1 ∧ l1.run w as = some l ∧ l0.sys.dh = before ∧
      ∀ s m wo rnd, e.op = .receive s m wo rnd → ∃ so rest, a = .route s wo so rnd ∧ l0.sys.up s = m :: rest := by
  induction h generalizing after with
  | new => cases after <;> cases he
  | act a hl ha ih =>
    rename_i l l'
    rcases act_dealer ha with e1 | ⟨e', e1, e2⟩
    · rw [e1] at he
      obtain ⟨l0, a0, l1, as, h1, h2, h3, h4⟩ := ih he
      exact ⟨l0, a0, l1, as ++ [a], h1, h2, run_snoc as h3 ha, h4⟩
    · rw [e1] at he
      cases after with
      | nil =>
        cases he
        exact ⟨l, a, l', [], hl, ha, rfl, rfl, e2⟩
      | cons x after =>
        obtain ⟨l0, a0, l1, as, h1, h2, h3, h4⟩ := ih (List.cons.inj he).2
        exact ⟨l0, a0, l1, as ++ [a], h1, h2, run_snoc as h3 ha, h4⟩

/-- **C118** Client `c` has registered `p` with the "single" policy under ID `g` and has not sent an UNREGISTER for it: every CALL of `p` that
the dealer is given since reaches `c` as an INVOCATION of `g` with the args and kwargs of the CALL. -/
theorem C118_calls_arrive {n : Net} (h : Run w k n) (hb : n.core.bh.length ≤ 2 ^ 53) (hd : n.core.dh.length ≤ 2 ^ 53) (c r g : Nat) (p : Str)
    (s q : Nat) (o : GoMap) (a : GoSlice) (kw : GoMap) (wo : List Str) (rnd : Nat) (res : Res Dealer.Out) (after before : List Dealer.Event)
    (he : n.core.dh = after ++ ⟨.receive s (.call q o p a kw Bin.none) wo rnd, res⟩ :: before)
    (hreg : ∃ o' wo' rnd', ⟨.receive c (.register r o' p) wo' rnd', .ok (.msg (.registered r g) c)⟩ ∈ before)
    (hr : ∀ o' p', .register r o' p' ∈ n.core.sent c → p' = p)
    (hsingle : ∀ s r o, .register r o p ∈ heard k n s → o.text (str "invoke") = [] ∨ o.text (str "invoke") = str "single")
    (hu : ∀ q, .unregister q g ∉ n.core.sent c) (hc : Stays n.core c) (hs : Stays n.core s) (hread : n.ReadAll c) :
    ∃ i d, .invocation i g d (onArgs (k c).norm a kw) (onMap (k c).norm kw) Bin.none ∈ n.got c := by
  obtain ⟨l, hl, ha⟩ := run_at h
  rw [← ha.sim.dh] at he
  obtain ⟨l0, act, l1, as, h1, h2, h3, h4, h5⟩ := reach_backD hl he
  obtain ⟨so, rest, rfl, hup⟩ := h5 _ _ _ _ rfl
  obtain ⟨g1, g2, g3, g4⟩ := run_grows as h3
  obtain ⟨c1, c2⟩ := change_hist (log_change h2)
  have c3 := (change_grows (log_change h2)).2.2
  have back : ∀ {s}, Stays n.core s → Stays l0.sys s := fun hs =>
    ⟨fun e he => (ha.stays.2 hs).1 e (g1.subset (c1.subset he)), fun e he => (ha.stays.2 hs).2 e (g2.subset (c2.subset he))⟩
  have sent : ∀ {s m}, m ∈ l0.sys.sent s → m ∈ l.sys.sent s := fun hm => (g3 _).subset ((c3 _).subset hm)
  have hinbox : .registered r g ∈ l0.inbox c := by
    obtain ⟨o', wo', rnd', hm⟩ := hreg
    exact (log_out h1).dout _ (by rw [h4]; exact hm) c _ (.head _)
  have hlen : l0.sys.dh.length < 2 ^ 53 := by
    rw [h4]
    rw [← ha.sim.dh, he] at hd
    simp only [List.length_append, List.length_cons] at hd
    omega
  obtain ⟨l1', e1, ⟨i, d, a', k', bin', e2, e3⟩, -⟩ := C110_stays_callable h1 (Nat.le_trans (c1.trans g1).length_le (by rwa [ha.sim.bh])) hlen c r g p hinbox
    (fun o' p' hm => by
      obtain ⟨m0, hm0, e⟩ := ha.mem_sent.1 (sent hm)
      cases m0 <;> simp only [received, reduceCtorEq] at e
      cases e
      exact hr _ _ hm0)
    (fun s q o hm => hsingle s q o (ha.heard.1 (sent hm))) (fun q hm => hu q (ha.unregister.1 (sent hm))) (back hc) s q (back hs) o a kw Bin.none rest wo so rnd hup
  rw [h2] at e1
  cases e1
  rcases e3 with ⟨rfl, rfl, rfl⟩ | ⟨hc, -⟩
  · refine ⟨i, onMap (k c).norm d, ?_⟩
    rw [ha.inbox hread]
    exact List.mem_map.2 ⟨_, (g4 c).subset (by rw [e2]; exact List.mem_append_right _ (.head _)), rfl⟩
  · cases hc

/-! ### UNSUBSCRIBE and UNREGISTER -/

theorem steps_at {n n' : Net} {l : Log} (h : Steps w (fun s => (k s).codec) (fun s => (k s).Fit) n n') (ha : At k n l) :
    ∃ l' as, l.run w as = some l' ∧ At k n' l' := by
  induction h with
  | refl => exact ⟨l, [], rfl, ha⟩
  | step _ hs ih =>
    obtain ⟨l', as, h1, h2⟩ := ih
    obtain ⟨x', got', h3, h4, h5⟩ := sim_act (norm := fun s => (k s).norm) (fun s => (k s).carried) h2.sim h2.got hs
    rcases h3 with ⟨rfl, rfl, -⟩ | ⟨a, h3, -⟩
    · exact ⟨l', as, h1, h4, h5⟩
    · exact ⟨⟨x', got'⟩, as ++ [a], run_snoc as h1 h3, h4, h5⟩

/-- A step in which a client sends `m`. -/
theorem send_at {n n' : Net} {l : Log} (h : Step w (fun s => (k s).codec) (fun s => (k s).Fit) n n') (ha : At k n l) {s : Nat} {m : Msg}
    (hm : n'.core.sent s = m :: n.core.sent s) : ∃ l' data, l.act w (.send s data (received (k s).norm m)) = some l' ∧ At k n' l' := by
  obtain ⟨x', got', h3, h4, h5⟩ := sim_act (norm := fun s => (k s).norm) (fun s => (k s).carried) ha.sim ha.got h
  have absurd' : n'.core.sent s ≠ n.core.sent s := by
    intro e
    rw [e] at hm
    have := congrArg List.length hm
    simp at this
  rcases h3 with ⟨-, -, e⟩ | ⟨a, h3, h6, h7⟩
  · exact absurd (by rw [e]) absurd'
  · cases a with
    | send s' data m' =>
      obtain ⟨m0, rfl, e⟩ := h6 s' data m' rfl
      by_cases hss : s' = s
      · subst hss
        rw [e] at hm
        cases hm
        exact ⟨⟨x', got'⟩, data, h3, h4, h5⟩
      · exfalso
        -- the message level has one sender per action
        apply absurd'
        obtain ⟨y, e1, e2⟩ := Option.map_eq_some_iff.1 h3
        cases e2
        have e4 := h4.sent s
        rcases act_sent e1 with e3 | ⟨s'', d, m'', e5, e3⟩
        · rw [e3, ha.sim.sent] at e4
          rw [hm] at e4
          have := congrArg List.length e4
          simp at this
        · cases e5
          rw [e3] at e4
          simp only [upd, if_neg (Ne.symm hss)] at e4
          rw [ha.sim.sent, hm] at e4
          have := congrArg List.length e4
          simp at this
    | _ => exact absurd (by rw [h7 (fun _ _ _ e => nomatch e)]) absurd'

/-- **C118** A client that has read the UNSUBSCRIBEDs for its earlier UNSUBSCRIBEs of this subscription sends UNSUBSCRIBE: it has read the
UNSUBSCRIBED once all bytes are read in both directions. -/
theorem C118_unsubscribe_answered {n0 n1 n2 : Net} (h0 : Run w k n0) (s q i : Nat) (h1 : Step w (fun s => (k s).codec) (fun s => (k s).Fit) n0 n1)
    (hq : n1.core.sent s = .unsubscribe q i :: n0.core.sent s) (h2 : Steps w (fun s => (k s).codec) (fun s => (k s).Fit) n1 n2)
    (hb : n2.core.bh.length ≤ 2 ^ 53) (hf : Fresh n2.core s) (hs : Stays n2.core s)
    (hu : ∀ q', .unsubscribe q' i ∈ n0.core.sent s → .unsubscribed q' ∈ n0.got s) (ht : n2.TakenAll s) (hr : n2.ReadAll s) : .unsubscribed q ∈ n2.got s := by
  obtain ⟨l0, hl, ha0⟩ := run_at h0
  obtain ⟨l1, data, g1, ha1⟩ := send_at h1 ha0 hq
  obtain ⟨l2, as, g2, ha2⟩ := steps_at h2 ha1
  rcases C117_unsubscribe_answered hl s q i data g1 as g2 (by rwa [ha2.sim.bh]) (fresh_sim ha2.sim hf) (ha2.stays.2 hs)
    (fun q' hm => by have := hu q' (ha0.unsubscribe.1 hm); rw [ha0.got] at this; exact unsubscribed_received.1 this) with h | h
  · rw [ha2.up ht] at h; cases h
  · rw [ha2.inbox hr]; exact unsubscribed_received.2 h

/-- **C118** And the same for UNREGISTER of a registration that the client has read the REGISTERED for. -/
theorem C118_unregister_answered {n0 n1 n2 : Net} (h0 : Run w k n0) (s r q g : Nat) (hreg : .registered r g ∈ n0.got s)
    (h1 : Step w (fun s => (k s).codec) (fun s => (k s).Fit) n0 n1) (hq : n1.core.sent s = .unregister q g :: n0.core.sent s)
    (h2 : Steps w (fun s => (k s).codec) (fun s => (k s).Fit) n1 n2) (hb : n0.core.bh.length ≤ 2 ^ 53) (hs : Stays n2.core s)
    (hu : ∀ q', .unregister q' g ∉ n0.core.sent s) (ht : n2.TakenAll s) (hr : n2.ReadAll s) : .unregistered q ∈ n2.got s := by
  obtain ⟨l0, hl, ha0⟩ := run_at h0
  obtain ⟨l1, data, g1, ha1⟩ := send_at h1 ha0 hq
  obtain ⟨l2, as, g2, ha2⟩ := steps_at h2 ha1
  rcases C117_unregister_answered hl s r q g data (List.mem_append_left _ (registered_received.1 (by rw [← ha0.got]; exact hreg))) g1 as g2
    (by rwa [ha0.sim.bh]) (ha2.stays.2 hs) (fun q' hm => hu q' (ha0.unregister.1 hm)) with h | h
  · rw [ha2.up ht] at h; cases h
  · rw [ha2.inbox hr]; exact unregistered_received.2 h

/-! ### Runs that meet the hypotheses -/

theorem subscribed_split {n : Net} (h : Run w k n) (hb : n.core.bh.length ≤ 2 ^ 53) {s r i : Nat} (hm : .subscribed r i ∈ n.got s) :
    ∃ o t after before, n.core.bh = after ++ ⟨.receive s (.subscribe r o t), .ok (.msg (.subscribed r i) s)⟩ :: before := by
  obtain ⟨l, hl, ha⟩ := run_at h
  obtain ⟨o, t, he⟩ := subscribed_event hl (by rwa [ha.sim.bh]) (List.mem_append_left _ (subscribed_received.1 (by rw [← ha.got]; exact hm)))
  rw [ha.sim.bh] at he
  obtain ⟨a, b, e⟩ := List.append_of_mem he
  exact ⟨o, t, a, b, e⟩

def isSubscribed (r i : Nat) : Msg → Bool
  | .subscribed r' i' => r' = r ∧ i' = i
  | _ => false

theorem mem_subscribed {l : List Msg} {r i : Nat} (h : l.any (isSubscribed r i) = true) : .subscribed r i ∈ l := by
  obtain ⟨m, h1, h2⟩ := List.any_eq_true.1 h
  cases m <;> simp only [isSubscribed, Bool.false_eq_true, decide_eq_true_eq] at h2
  obtain ⟨rfl, rfl⟩ := h2
  exact h1

def isUnsubscribe : Msg → Bool
  | .unsubscribe .. => true
  | _ => false

def isRegister : Msg → Bool
  | .register .. => true
  | _ => false

example : let n := after tour
    Run Dealer.noWild mixed n ∧ n.core.bh.length ≤ 2 ^ 53 ∧ n.core.dh.length ≤ 2 ^ 53 ∧ Stays n.core 1 ∧ Stays n.core 2 ∧ Fresh n.core 1 ∧
      (n.TakenAll 1 ∧ n.ReadAll 1) ∧ (n.TakenAll 2 ∧ n.ReadAll 2) ∧ .subscribed 1 1 ∈ n.got 1 ∧ (n.core.sent 1).any isUnsubscribe = false ∧
      (n.core.bh.reverse.filterMap (publisher (str "t"))) = [2, 2] ∧ (n.got 1).map glance = [(33, 1), (36, 2), (36, 3), (50, 9)] := by
  refine ⟨run_after _, by decide +kernel, by decide +kernel, stays_of (by decide +kernel), stays_of (by decide +kernel), by unfold Fresh; decide +kernel,
    ⟨⟨by decide +kernel, by decide +kernel⟩, by decide +kernel, by decide +kernel⟩, ⟨⟨by decide +kernel, by decide +kernel⟩, by decide +kernel, by decide +kernel⟩,
    mem_subscribed (by decide +kernel), by decide +kernel, by decide +kernel, by decide +kernel⟩

/-- The invocation that a message answers. -/
def invocationOf : Msg → Option Nat
  | .yield i _ _ _ _ => some i
  | .error 68 i _ _ _ _ => some i
  | _ => none

def isInvocationB (i : Nat) : Msg → Bool
  | .invocation j _ _ _ _ _ => j = i
  | _ => false

/-- `politeStep`, computed. -/
def politeB (n : Net) : Cmd → Bool
  | .send s m =>
    match invocationOf m with
    | some i => (n.got s).any (isInvocationB i)
    | none => true
  | _ => true

theorem exec_polite {n n' : Net} (cmd : Cmd) (hc : exec w k n cmd = some n') (hp : politeB n cmd = true) : politeStep n n' := by
  intro s m hm i hi
  have hlen : n'.core.sent s ≠ n.core.sent s := by
    intro e
    rw [e] at hm
    have := congrArg List.length hm
    simp at this
  cases cmd with
  | send s' m' =>
    simp only [exec] at hc
    split at hc
    · split at hc
      · obtain ⟨y, e1, e2⟩ := Option.map_eq_some_iff.1 hc
        subst e2
        rcases act_sent e1 with e3 | ⟨_, _, _, e4, e3⟩
        · exact absurd (by rw [Sys.emptied, e3]) hlen
        · cases e4
          simp only [Sys.emptied, e3, upd] at hm
          split at hm
          · rename_i e; subst e
            cases hm
            have : invocationOf m = some i := by
              cases m <;> simp only [answersInvocation] at hi
              · obtain ⟨rfl, rfl⟩ := hi; rfl
              · subst hi; rfl
            simp only [politeB, this] at hp
            obtain ⟨m', g1, g2⟩ := List.any_eq_true.1 hp
            refine ⟨m', g1, ?_⟩
            cases m' <;> simp only [isInvocationB, Bool.false_eq_true, decide_eq_true_eq] at g2
            exact g2
          · have := congrArg List.length hm
            simp at this
      · cases hc
    · cases hc
  | join d =>
    obtain ⟨y, e1, e2⟩ := Option.map_eq_some_iff.1 hc
    subst e2
    rcases act_sent e1 with e3 | ⟨_, _, _, e4, e3⟩
    · exact absurd (by rw [e3]) hlen
    · cases e4
  | leave s =>
    obtain ⟨y, e1, e2⟩ := Option.map_eq_some_iff.1 hc
    subst e2
    rcases act_sent e1 with e3 | ⟨_, _, _, e4, e3⟩
    · exact absurd (by rw [e3]) hlen
    · cases e4
  | up s j => cases hc; exact absurd rfl hlen
  | down s j => cases hc; exact absurd rfl hlen
  | route s =>
    simp only [exec] at hc
    split at hc
    · cases hc
    split at hc
    · split at hc
      · obtain ⟨y, e1, e2⟩ := Option.map_eq_some_iff.1 hc
        subst e2
        rcases act_sent e1 with e3 | ⟨_, _, _, e4, e3⟩
        · exact absurd (by rw [Sys.emptied, e3]) hlen
        · cases e4
      · cases hc
    · cases hc
  | deliver s =>
    simp only [exec] at hc
    split at hc
    · cases hc
    split at hc
    · obtain ⟨y, e1, e2⟩ := Option.map_eq_some_iff.1 hc
      subst e2
      rcases act_sent e1 with e3 | ⟨_, _, _, e4, e3⟩
      · exact absurd (by rw [Sys.emptied, e3]) hlen
      · cases e4
    · cases hc

/-- Commands one after the other, as long as they are polite. -/
def politely (w : Str → Str → Bool) (k : Nat → Kind) : Net → List Cmd → Option Net
  | n, [] => some n
  | n, c :: cs => if politeB n c = true then (exec w k n c).bind fun n' => politely w k n' cs else none

theorem politely_polite {n n' : Net} (h : Polite w (fun s => (k s).codec) (fun s => (k s).Fit) n) (cs : List Cmd) (hc : politely w k n cs = some n') :
    Polite w (fun s => (k s).codec) (fun s => (k s).Fit) n' := by
  induction cs generalizing n with
  | nil => cases hc; exact h
  | cons c cs ih =>
    simp only [politely] at hc
    split at hc
    · rename_i hp
      obtain ⟨z, h1, h2⟩ := Option.bind_eq_some_iff.1 hc
      exact ih (h.step (exec_polite c h1 hp) (exec_step (polite_run h) c h1)) h2
    · cases hc

/-- The state after these polite commands. -/
def behaved (cs : List Cmd) : Net := (politely Dealer.noWild mixed Net.new cs).getD Net.new

theorem polite_behaved (cs : List Cmd) : Polite Dealer.noWild (fun s => (mixed s).codec) (fun s => (mixed s).Fit) (behaved cs) := by
  unfold behaved
  cases h : politely Dealer.noWild mixed Net.new cs with
  | none => exact .new
  | some y => exact politely_polite .new cs h

theorem written_empty (c : Codec) {b : Str} (h : Written c [] b) : b = [] := by cases h; rfl

/-- Only those who joined have anything to do with the router. -/
theorem net_joined {n : Net} (h : Run w k n) (hb : n.core.bh.length ≤ 2 ^ 53) (hd : n.core.dh.length ≤ 2 ^ 53) (s : Nat) (hs : s ∉ n.core.joined) :
    n.core.sent s = [] ∧ n.got s = [] ∧ n.TakenAll s ∧ n.ReadAll s := by
  obtain ⟨l, hl, ha⟩ := run_at h
  obtain ⟨h1, h2⟩ := got_joined hl (by rwa [ha.sim.bh]) (by rwa [ha.sim.dh]) s (by rwa [ha.sim.joined])
  obtain ⟨h3, h4⟩ := List.append_eq_nil_iff.1 h2
  have hsent : n.core.sent s = [] := by
    rw [ha.sim.sent] at h1
    exact List.map_eq_nil_iff.1 h1
  refine ⟨hsent, by rw [ha.got, h3]; rfl, ?_, ?_⟩
  · obtain ⟨us, -, g2, g3⟩ := ha.sim.up s
    have : us = [] := List.eq_nil_iff_forall_not_mem.2 fun m hm => by have := (g2 m hm).2; rw [hsent] at this; cases this
    rw [this] at g3
    exact List.append_eq_nil_iff.1 (written_empty _ g3)
  · have := (ha.sim.down s).2
    rw [h4] at this
    exact List.append_eq_nil_iff.1 (written_empty _ this)

theorem net_idle {n : Net} (h : Run w k n) (hb : n.core.bh.length ≤ 2 ^ 53) (hd : n.core.dh.length ≤ 2 ^ 53)
    (hi : n.core.joined.all (fun s => (n.upBuf s).isEmpty && (n.upWay s).isEmpty && ((n.downBuf s).isEmpty && (n.downWay s).isEmpty)) = true) : n.Idle := by
  intro s
  by_cases hs : s ∈ n.core.joined
  · have := List.all_eq_true.1 hi s hs
    simp only [Bool.and_eq_true, List.isEmpty_iff] at this
    exact this
  · exact (net_joined h hb hd s hs).2.2

theorem net_served {n : Net} (h : Run w k n) (hb : n.core.bh.length ≤ 2 ^ 53) (hd : n.core.dh.length ≤ 2 ^ 53)
    (hi : n.core.joined.all (fun s => ((n.got s).filterMap invocationID).all fun i => n.core.joined.any fun p =>
      (n.core.sent p).any (endsInvocationB i)) = true) : n.Served := by
  rintro c i ⟨m, hm, hi'⟩
  by_cases hs : c ∈ n.core.joined
  · have h1 := List.all_eq_true.1 (List.all_eq_true.1 hi c hs) i (List.mem_filterMap.2 ⟨m, hm, invocationID_of hi'⟩)
    obtain ⟨p, -, h2⟩ := List.any_eq_true.1 h1
    obtain ⟨m', h3, h4⟩ := List.any_eq_true.1 h2
    exact ⟨p, m', h3, endsInvocation_of h4⟩
  · rw [(net_joined h hb hd c hs).2.1] at hm; cases hm

example : let n := behaved tour
    n.core.bh.length ≤ 2 ^ 53 ∧ n.core.dh.length ≤ 2 ^ 53 ∧ n.Idle ∧ n.Served ∧ Stays n.core 1 ∧ Stays n.core 2 ∧
      (∀ c r o p, .register r o p ∈ n.core.sent c → Stays n.core c) ∧ (n.core.sent 1).map request = [some (48, 9), some (32, 1)] ∧
      (n.got 1).map glance = [(33, 1), (36, 2), (36, 3), (50, 9)] := by
  have hb : (behaved tour).core.bh.length ≤ 2 ^ 53 := by decide +kernel
  have hd : (behaved tour).core.dh.length ≤ 2 ^ 53 := by decide +kernel
  have hr := polite_run (polite_behaved tour)
  have hj : (behaved tour).core.joined = [2, 1] := by decide +kernel
  have s1 : Stays (behaved tour).core 1 := stays_of (by decide +kernel)
  have s2 : Stays (behaved tour).core 2 := stays_of (by decide +kernel)
  refine ⟨hb, hd, net_idle hr hb hd (by decide +kernel), net_served hr hb hd (by decide +kernel), s1, s2, ?_, by decide +kernel, by decide +kernel⟩
  intro c r o p hm
  by_cases hc : c ∈ (behaved tour).core.joined
  · rw [hj] at hc
    rcases List.mem_cons.1 hc with rfl | hc
    · exact s2
    · rcases List.mem_cons.1 hc with rfl | hc
      · exact s1
      · cases hc
  · rw [(net_joined hr hb hd c hc).1] at hm; cases hm

/-- No REGISTER that the dealer handled asks for a shared registration. -/
def exclusiveOp : Dealer.Op → Bool
  | .receive _ m _ _ => exclusiveB m
  | _ => true

theorem tame_of {n : Net} (h : Run w k n) (hd : n.core.dh.length ≤ 2 ^ 53) (hc : n.core.dh.all (fun e => exclusiveOp e.op) = true) (p : Str) :
    Dealer.Tame p n.core.dh := by
  obtain ⟨x, hx, hs⟩ := run_sim h
  rw [← hs.dh] at hd hc ⊢
  refine (Dealer.hist_single (reach_hist hx).2 hd ?_).1
  intro e he s q o order rnd heq
  have := List.all_eq_true.1 hc e he
  rw [heq] at this
  simpa [exclusiveB, exclusiveOp] using this

/-- The tour goes on: session 2 leaves, and session 1 calls its procedure again. -/
def deserted : List Cmd := tour ++ [.leave 2] ++ sends 1 (newCall 10 none (str "p") none none) ++ [.down 1 100, .deliver 1]

theorem deserted_short : (behaved deserted).core.bh.length ≤ 2 ^ 53 ∧ (behaved deserted).core.dh.length ≤ 2 ^ 53 := by
  constructor <;> decide +kernel

theorem deserted_idle : (behaved deserted).Idle :=
  net_idle (polite_run (polite_behaved deserted)) deserted_short.1 deserted_short.2 (by decide +kernel)

theorem deserted_served : (behaved deserted).Served :=
  net_served (polite_run (polite_behaved deserted)) deserted_short.1 deserted_short.2 (by decide +kernel)

theorem deserted_exclusive : (behaved deserted).core.dh.all (fun e => exclusiveOp e.op) = true := by decide +kernel

attribute [local irreducible] Dealer.Tame in
/-- What `C118_calls_finish_leaving` asks for holds of this run. -/
theorem deserted_fits : Polite Dealer.noWild (fun s => (mixed s).codec) (fun s => (mixed s).Fit) (behaved deserted) ∧
    (behaved deserted).core.bh.length ≤ 2 ^ 53 ∧ (behaved deserted).core.dh.length ≤ 2 ^ 53 ∧ (behaved deserted).Idle ∧
    (behaved deserted).Served ∧ ∀ p, Dealer.Tame p (behaved deserted).core.dh :=
  ⟨polite_behaved deserted, deserted_short.1, deserted_short.2, deserted_idle, deserted_served,
    tame_of (polite_run (polite_behaved deserted)) deserted_short.2 deserted_exclusive⟩

example : Stays (behaved deserted).core 1 ∧
    ((behaved deserted).core.sent 2).map request = [none, some (64, 1), some (16, 8), some (16, 7)] ∧
    ((behaved deserted).core.sent 1).map request = [some (48, 10), some (48, 9), some (32, 1)] ∧
    ((behaved deserted).got 1).map glance = [(33, 1), (36, 2), (36, 3), (50, 9), (8, 10)] :=
  ⟨stays_of (by decide +kernel), by decide +kernel, by decide +kernel, by decide +kernel⟩

/-- Session 1 subscribes, unsubscribes and registers and unregisters; the UNSUBSCRIBE and UNREGISTER are sent first and arrive later. -/
def outBegin : List Cmd :=
  [.join (Dealer.who 1), .join (Dealer.who 2)] ++ sends 1 (newSubscribe 1 none (str "t")) ++ sends 1 (newRegister 2 none (str "p")) ++
  [.down 1 100, .deliver 1, .deliver 1]

theorem execAll_steps {n n' : Net} (h : Run w k n) (cs : List Cmd) (hc : execAll w k n cs = some n') :
    Steps w (fun s => (k s).codec) (fun s => (k s).Fit) n n' := by
  suffices ∀ n0, Steps w (fun s => (k s).codec) (fun s => (k s).Fit) n0 n → Steps w (fun s => (k s).codec) (fun s => (k s).Fit) n0 n' from this n .refl
  induction cs generalizing n with
  | nil => cases hc; exact fun _ h => h
  | cons c cs ih =>
    obtain ⟨z, h1, h2⟩ := Option.bind_eq_some_iff.1 hc
    exact fun n0 hn => ih (exec_run h c h1) h2 n0 (hn.step (exec_step h c h1))

/-- Commands after `outBegin` are steps, if they are possible. -/
theorem after_steps (cs ds : List Cmd) (h : (execAll Dealer.noWild mixed (after cs) ds).isSome = true) :
    ∃ n, execAll Dealer.noWild mixed (after cs) ds = some n ∧ Run Dealer.noWild mixed n ∧
      Steps Dealer.noWild (fun s => (mixed s).codec) (fun s => (mixed s).Fit) (after cs) n := by
  obtain ⟨n, hn⟩ := Option.isSome_iff_exists.1 h
  exact ⟨n, hn, execAll_run (run_after cs) ds hn, execAll_steps (run_after cs) ds hn⟩

def digest (n : Net) (s : Nat) : List (Option (Nat × Nat)) × Bool :=
  ((n.got s).map answers, (n.upBuf s).isEmpty && (n.upWay s).isEmpty && ((n.downBuf s).isEmpty && (n.downWay s).isEmpty))

example : digest (after outBegin) 1 = ([some (32, 1), some (64, 2)], true) ∧
    ((execAll Dealer.noWild mixed (after outBegin) [.send 1 (.unsubscribe 3 1)]).map fun n => n.core.sent 1 |>.map request) =
      some [some (34, 3), some (64, 2), some (32, 1)] ∧
    (execAll Dealer.noWild mixed (after outBegin) [.send 1 (.unsubscribe 3 1), .send 1 (.unregister 4 1), .up 1 1000, .route 1, .route 1, .down 1 1000, .deliver 1, .deliver 1]).map (digest · 1) =
      some ([some (32, 1), some (64, 2), some (34, 3), some (66, 4)], true) := by decide +kernel

end Wamp.Net
