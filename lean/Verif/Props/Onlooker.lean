import Verif.Props.Listener
import Verif.Lemmas.DealerUse
import Verif.Props.System
import Verif.Spec.Onlooker
/-!
# C167: a client that only listens goes unnoticed
-/
namespace Wamp.Dealer.Onlooker
variable {w : Str → Str → Bool} {s : Nat} {b b' : State}

/-- The dealer with other tables of sessions. -/
def put (b : State) (f : FMap Nat SessionDetails) (g : FMap Nat (AMap Nat Nat)) : State := { b with sessions := f, bySession := g }

/-- Session `s` never registered or called anything. -/
structure Idle (s : Nat) (b : State) : Prop where
  callees : ∀ p, s ∉ (b.heap p).callees
  caller : ∀ i q, b.pending.get i = some q → q.callerID ≠ s

/-- The call is not one of session `s`. -/
def others (s : Nat) : Op → Prop
  | .add d => d.id ≠ s
  | .remove x _ => x ≠ s
  | .receive x _ _ _ => x ≠ s
  | _ => True

theorem removeStep_put (f g) (x p : Nat) : removeStep x (put b f g) p = (removeStep x b p).map (put · f g) := by
  simp only [removeStep, put]
  cases b.byProc (b.heap p).procedure with
  | none => rfl
  | some q =>
    dsimp only
    cases surgery x (b.heap q).callees.length 0 (b.heap q).callees (b.heap q).callees.length <;> rfl

theorem removeLoop_put (f g) (x : Nat) : ∀ (ps : List Nat) {b : State}, removeLoop x (put b f g) ps = (removeLoop x b ps).map (put · f g)
  | [], b => rfl
  | p :: ps, b => by
    simp only [removeLoop, removeStep_put]
    cases removeStep x b p with
    | ok c => simp only [Res.map_ok, Res.bind_ok]; exact removeLoop_put f g x ps
    | err => rfl
    | panic => rfl

theorem lookup_put (f g) (o : List Str) (t : Str) : lookup w o (put b f g) t = lookup w o b t := rfl

/-- `b'` is `b` with session `s` in addition, which neither registers nor calls anything. -/
structure Off (s : Nat) (b b' : State) : Prop where
  idle : Idle s b
  rest : b' = put b b'.sessions b'.bySession
  sess : ∀ x, x ≠ s → b'.sessions x = b.sessions x
  bys : ∀ x, x ≠ s → b'.bySession x = b.bySession x
  free : b'.bySession s = none ∨ b'.bySession s = some []

theorem set_off {V : Type} {f g : FMap Nat V} (h : ∀ x, x ≠ s → f x = g x) (y : Nat) (v : V) : ∀ x, x ≠ s → f.set y v x = g.set y v x := by
  intro x hx
  simp only [FMap.set, h x hx]

theorem del_off {V : Type} {f g : FMap Nat V} (h : ∀ x, x ≠ s → f x = g x) (y : Nat) : ∀ x, x ≠ s → f.del y x = g.del y x := by
  intro x hx
  simp only [FMap.del, h x hx]

theorem set_self {V : Type} (f : FMap Nat V) {y : Nat} (hy : y ≠ s) (v : V) : f.set y v s = f s := by
  simp only [FMap.set, if_neg (Ne.symm hy)]

theorem del_self {V : Type} (f : FMap Nat V) {y : Nat} (hy : y ≠ s) : f.del y s = f s := by
  simp only [FMap.del, if_neg (Ne.symm hy)]

theorem idle_call (h : Idle s b) {a : Nat} (nc : Nat) {x : Nat} (hx : x ≠ s) {fresh : Bool} {inv r c : Nat} {p rp : Bool} {gen : Nat}
    {ic : FMap (Nat × Nat) Nat} : Idle s { b with
      heap := hset b.heap a { b.heap a with nextCallee := nc }
      idGen := gen
      pending := if fresh then b.pending.set inv ⟨r, x, c, p, rp⟩ else b.pending
      invByCall := ic } := by
  refine ⟨fun q => ?_, fun i q hq => ?_⟩
  · simp only [hset]
    split
    · exact h.callees a
    · exact h.callees q
  · dsimp only at hq
    split at hq
    · rw [AMap.get_set] at hq
      split at hq
      · cases hq; exact hx
      · exact h.caller i q hq
    · exact h.caller i q hq

theorem idle_del (h : Idle s b) (i : Nat) : Idle s { b with pending := b.pending.del i } := by
  refine ⟨h.callees, fun j q hq => ?_⟩
  have hq : AMap.get (b.pending.del i) j = some q := hq
  rw [AMap.get_del] at hq
  split at hq
  · cases hq
  · exact h.caller j q hq

/-- A call of somebody else. -/
theorem Off.other (h : Off s b b') {op : Op} (ho : others s op) :
    (step w b' op).2 = (step w b op).2 ∧ Off s (step w b op).1 (step w b' op).1 := by
  obtain ⟨hi, hr, h1, h2, h3⟩ := h
  generalize b'.sessions = f at hr h1
  generalize b'.bySession = g at hr h2 h3
  subst hr
  cases op with
  | add d =>
    have hd : d.id ≠ s := ho
    simp only [step, addSession, put, h1 d.id hd]
    split
    · exact ⟨rfl, hi, rfl, h1, h2, h3⟩
    · exact ⟨rfl, ⟨hi.callees, hi.caller⟩, rfl, set_off h1 _ _, set_off h2 _ _, by
        show FMap.set g _ _ s = _ ∨ FMap.set g _ _ s = _
        rw [set_self g hd]; exact h3⟩
  | remove x o =>
    have hx : x ≠ s := ho
    simp only [step, removeSession]
    rw [show (put b f g).sessions x = b.sessions x from h1 x hx, show (put b f g).bySession x = b.bySession x from h2 x hx]
    cases b.sessions x with
    | none => exact ⟨rfl, hi, rfl, h1, h2, h3⟩
    | some d =>
      dsimp only
      rw [removeLoop_put]
      cases hl : removeLoop x b ((arrange o ((b.bySession x).getD []).keys).filterMap ((b.bySession x).getD []).get) with
      | ok c =>
        obtain ⟨fr, e1, e2⟩ := removeLoop_frame hl
        refine ⟨rfl, ⟨fun p hp => hi.callees p ((fr.objs p).2.2 s hp), fun i q hq => ?_⟩, rfl, ?_, ?_, ?_⟩
        · rw [show State.pending _ = c.pending from rfl, fr.pending] at hq
          exact hi.caller i q hq
        · show ∀ x', x' ≠ s → FMap.del f x x' = FMap.del c.sessions x x'
          rw [e1]; exact del_off h1 x
        · show ∀ x', x' ≠ s → FMap.del g x x' = FMap.del c.bySession x x'
          rw [e2]; exact del_off h2 x
        · show FMap.del g x s = _ ∨ FMap.del g x s = _
          rw [del_self g hx]; exact h3
      | err => exact ⟨rfl, hi, rfl, h1, h2, h3⟩
      | panic => exact ⟨rfl, hi, rfl, h1, h2, h3⟩
  | has t => exact ⟨rfl, hi, rfl, h1, h2, h3⟩
  | disclose on => exact ⟨rfl, ⟨hi.callees, hi.caller⟩, rfl, h1, h2, h3⟩
  | receive x msg o rnd =>
    have hx : x ≠ s := ho
    cases msg with
    | call r opts t args kw bin =>
      simp only [step, receive, call, lookup_put]
      cases lookup w o b t with
      | none => exact ⟨rfl, hi, rfl, h1, h2, h3⟩
      | some a =>
        dsimp only
        rw [show (put b f g).heap = b.heap from rfl]
        split
        · exact ⟨rfl, hi, rfl, h1, h2, h3⟩
        · cases hp : pick (b.heap a) rnd with
          | err => exact ⟨rfl, hi, rfl, h1, h2, h3⟩
          | panic => exact ⟨rfl, hi, rfl, h1, h2, h3⟩
          | ok z =>
            obtain ⟨c, nc⟩ := z
            have hc : c ≠ s := fun e => hi.callees a (e ▸ pick_mem hp)
            dsimp only
            rw [show (put b f g).sessions x = b.sessions x from h1 x hx, show (put b f g).sessions c = b.sessions c from h1 c hc,
              show (put b f g).details = b.details from rfl, show (put b f g).invByCall = b.invByCall from rfl,
              show (put b f g).idGen = b.idGen from rfl, show (put b f g).pending = b.pending from rfl]
            split
            · exact ⟨rfl, idle_call hi nc hx, rfl, h1, h2, h3⟩
            · cases b.sessions c with
              | none => exact ⟨rfl, idle_call hi nc hx, rfl, h1, h2, h3⟩
              | some d =>
                dsimp only
                split <;> exact ⟨rfl, idle_call hi nc hx, rfl, h1, h2, h3⟩
    | yield r opts args kw bin =>
      simp only [step, receive, yield]
      rw [show (put b f g).pending = b.pending from rfl]
      cases hq : b.pending.get r with
      | none => exact ⟨rfl, hi, rfl, h1, h2, h3⟩
      | some q =>
        dsimp only
        rw [show (put b f g).sessions q.callerID = b.sessions q.callerID from h1 _ (hi.caller r q hq)]
        by_cases hm : (q.receiveProgress && opts.flag optProgress) = true
        · simp only [hm, if_true]
          cases b.sessions q.callerID with
          | none => exact ⟨rfl, hi, rfl, h1, h2, h3⟩
          | some d =>
            dsimp only
            split <;> exact ⟨rfl, hi, rfl, h1, h2, h3⟩
        · simp only [hm, if_false, Bool.false_eq_true]
          cases b.sessions q.callerID with
          | none => exact ⟨rfl, idle_del hi r, rfl, h1, h2, h3⟩
          | some d =>
            dsimp only
            split <;> exact ⟨rfl, idle_del hi r, rfl, h1, h2, h3⟩
    | register r opts t =>
      simp only [step, receive, register]
      rw [show (put b f g).bySession x = b.bySession x from h2 x hx]
      cases b.bySession x with
      | none => exact ⟨rfl, hi, rfl, h1, h2, h3⟩
      | some m =>
        dsimp only
        rw [show (put b f g).byProc = b.byProc from rfl, show (put b f g).heap = b.heap from rfl]
        cases b.byProc t with
        | some a =>
          dsimp only
          split
          · exact ⟨rfl, hi, rfl, h1, h2, h3⟩
          · refine ⟨rfl, ⟨fun p => ?_, hi.caller⟩, rfl, h1, set_off h2 _ _, ?_⟩
            · simp only [hset]
              split
              · simp only [List.mem_append, List.mem_singleton, not_or]
                exact ⟨hi.callees a, Ne.symm hx⟩
              · exact hi.callees p
            · show FMap.set g _ _ s = _ ∨ FMap.set g _ _ s = _
              rw [set_self g hx]; exact h3
        | none =>
          refine ⟨rfl, ⟨fun p => ?_, hi.caller⟩, rfl, h1, set_off h2 _ _, ?_⟩
          · simp only [hset]
            split
            · simp only [List.mem_singleton]
              exact Ne.symm hx
            · exact hi.callees p
          · show FMap.set g _ _ s = _ ∨ FMap.set g _ _ s = _
            rw [set_self g hx]; exact h3
    | unregister r i =>
      simp only [step, receive, unregister]
      rw [show (put b f g).bySession x = b.bySession x from h2 x hx]
      cases b.bySession x with
      | none => exact ⟨rfl, hi, rfl, h1, h2, h3⟩
      | some m =>
        dsimp only
        split
        · exact ⟨rfl, hi, rfl, h1, h2, h3⟩
        · cases m.get i with
          | none => exact ⟨rfl, hi, rfl, h1, h2, h3⟩
          | some a =>
            have hcs : ∀ (l : List Nat) p, s ∉ (hset b.heap a { b.heap a with registrants := l } p).callees := fun l p => by
              simp only [hset]
              split
              · exact hi.callees a
              · exact hi.callees p
            dsimp only
            rw [show (put b f g).heap = b.heap from rfl]
            split
            · refine ⟨rfl, ⟨hcs _, hi.caller⟩, rfl, h1, set_off h2 _ _, ?_⟩
              show FMap.set g _ _ s = _ ∨ FMap.set g _ _ s = _
              rw [set_self g hx]; exact h3
            · exact ⟨rfl, ⟨hcs _, hi.caller⟩, rfl, h1, h2, h3⟩
    | error t r d u args kw =>
      simp only [step, receive, error]
      split
      · exact ⟨rfl, hi, rfl, h1, h2, h3⟩
      · rw [show (put b f g).pending = b.pending from rfl]
        cases b.pending.get r with
        | none => exact ⟨rfl, hi, rfl, h1, h2, h3⟩
        | some q => exact ⟨rfl, idle_del hi r, rfl, h1, h2, h3⟩
    | _ => exact ⟨rfl, hi, rfl, h1, h2, h3⟩

/-- The session comes. -/
theorem Off.comes (h : Off s b b') (d : SessionDetails) (hd : d.id = s) :
    (step w b' (.add d)).2 ≠ .panic ∧ Off s b (step w b' (.add d)).1 := by
  simp only [step, addSession, hd]
  split
  · exact ⟨by simp [Res.map], h⟩
  · refine ⟨by simp [Res.map], h.idle, ?_, fun x hx => ?_, fun x hx => ?_, Or.inr ?_⟩
    · show State.mk _ _ _ _ _ _ _ _ _ _ _ = _
      rw [h.rest]
      rfl
    · show FMap.set _ _ _ x = _
      simp only [FMap.set, if_neg hx, h.sess x hx]
    · show FMap.set _ _ _ x = _
      simp only [FMap.set, if_neg hx, h.bys x hx]
    · show FMap.set _ _ _ s = _
      simp only [FMap.set, if_true]

/-- The session goes. -/
theorem Off.goes (h : Off s b b') (o : List Nat) :
    (step w b' (.remove s o)).2 ≠ .panic ∧ Off s b (step w b' (.remove s o)).1 := by
  have hm : (b'.bySession s).getD [] = [] := by rcases h.free with e | e <;> rw [e] <;> rfl
  simp only [step, removeSession, hm]
  cases b'.sessions s with
  | none => exact ⟨by simp [Res.map], h⟩
  | some d =>
    have e : (arrange o (AMap.keys ([] : AMap Nat Nat))).filterMap (AMap.get ([] : AMap Nat Nat)) = [] := by
      rw [List.filterMap_eq_nil_iff]
      intro k _
      rfl
    rw [e]
    refine ⟨by simp [removeLoop, Res.map], h.idle, ?_, fun x hx => ?_, fun x hx => ?_, Or.inl ?_⟩
    · show State.mk _ _ _ _ _ _ _ _ _ _ _ = _
      rw [h.rest]
      rfl
    · show FMap.del _ _ x = _
      simp only [FMap.del, if_neg hx, h.sess x hx]
    · show FMap.del _ _ x = _
      simp only [FMap.del, if_neg hx, h.bys x hx]
    · show FMap.del _ _ s = _
      simp only [FMap.del, if_true]

theorem Off.self (h : Off s b b') : Off s b' b' := by
  refine ⟨?_, rfl, fun _ _ => rfl, fun _ _ => rfl, h.free⟩
  rw [h.rest]
  exact ⟨h.idle.callees, h.idle.caller⟩

end Wamp.Dealer.Onlooker

namespace Wamp.System
variable {w : Str → Str → Bool}

namespace Onlooker
open Wamp.Broker.Listener Wamp.Dealer.Onlooker

theorem onDealer_of {x : Sys} {op : Dealer.Op} (h : (Dealer.step w x.dealer op).2 ≠ .panic) :
    x.onDealer w op = some { x with dealer := (Dealer.step w x.dealer op).1, dh := ⟨op, (Dealer.step w x.dealer op).2⟩ :: x.dh } := by
  simp only [Sys.onDealer]

/-- `y` is `x` with client `s` in addition, which only listens. -/
structure Same (s a : Nat) (T : List Str) (x y : Sys) : Prop where
  broker : Rel s a x.broker y.broker
  dealer : Off s x.dealer y.dealer
  client : ∀ c, c ≠ s → y.client c = x.client c
  up : ∀ c, c ≠ s → y.up c = x.up c
  down : ∀ c, c ≠ s → y.down c = x.down c
  sent : ∀ c, c ≠ s → y.sent c = x.sent c
  joined : ∀ c, c ≠ s → (c ∈ y.joined ↔ c ∈ x.joined)
  looks : ∀ m ∈ y.up s, onlooks T m = true

variable {s a : Nat} {T : List Str} {x y z : Sys}

/-- What the others get is the same. -/
theorem out_same {c : Nat} (hc : c ≠ s) (r : Res Broker.Out) : messagesFor c (brokerOut (Broker.unheard s r)) = messagesFor c (brokerOut r) := by
  cases r with
  | ok o =>
    cases o with
    | pub p =>
      simp only [Broker.unheard, brokerOut, messagesFor_append]
      congr 1
      cases p.event with
      | none => rfl
      | some m =>
        simp only [messagesFor]
        congr 1
        induction p.recipients with
        | nil => rfl
        | cons d l ih =>
          by_cases hd : d = s
          · subst hd
            simp only [List.filter_cons, List.map_cons, ne_eq, not_true, decide_false, Bool.false_eq_true, if_false]
            rw [if_neg (by simpa using Ne.symm hc)]
            exact ih
          · simp only [List.filter_cons, List.map_cons, ne_eq, hd, not_false_eq_true, decide_true, if_true]
            split
            · rw [ih]
            · exact ih
    | _ => rfl
  | _ => rfl

theorem upd_off {α : Type} {f g : Nat → α} (h : ∀ c, c ≠ s → f c = g c) (d : Nat) (v : α) : ∀ c, c ≠ s → upd f d v c = upd g d v c := by
  intro c hc
  simp only [upd, h c hc]

/-- The broker's steady state. -/
structure Steady (w : Str → Str → Bool) (a : Nat) (T : List Str) (x : Sys) : Prop where
  reach : Reach w x
  topics : ∀ t ∈ T, ∃ i p, Broker.current x.bh a t = some i ∧ Broker.policy x.bh i = some p ∧ p ≠ str "prefix" ∧ p ≠ str "wildcard"
  keeps : ∀ m ∈ x.up a, givesUp m = false

theorem Same.brokers (h : Same s a T x y) (hr : Reach w x) (hlen : x.bh.length ≤ 2 ^ 53) {op : Broker.Op} (ho : Broker.stays s a op = true) :
    Broker.unheard s (Broker.step w y.broker op).2 = (Broker.step w x.broker op).2 ∧
      Rel s a (Broker.step w x.broker op).1 (Broker.step w y.broker op).1 := by
  have hi := Broker.hist_inv (reach_hist hr).1 hlen
  exact h.broker.other (w := w) (fun t p hp => ⟨(hi.top t p hp).1, (hi.top t p hp).2.1⟩) (fun x m i p hm hg => (hi.ses x m i p hm hg).1) ho

theorem Steady.good (h : Steady w a T x) (hlen : x.bh.length ≤ 2 ^ 53) : ∀ t ∈ T, ∃ p, x.broker.byTopic t = some p ∧ Good a x.broker p :=
  Broker.Listener.good (reach_hist h.reach).1 hlen h.topics

/-- An action of the client that listens. -/
theorem Same.mine (h : Same s a T x y) (hT : Steady w a T x) (hlen : x.bh.length ≤ 2 ^ 53) {act : Action} (ho : ofOnlooker s T act = true)
    (hz : y.act w act = some z) : Same s a T x z := by
  have hg := hT.good hlen
  cases act with
  | join d =>
    have hd : d.id = s := by simpa [ofOnlooker] using ho
    simp only [Sys.act] at hz
    split at hz
    · cases hz
    · obtain ⟨-, rfl⟩ := onDealer_some hz
      refine ⟨h.broker.mine (w := w) hg (op := .add d) (by simp [Broker.listens, hd]), (h.dealer.comes (w := w) d hd).2, h.client, h.up, h.down,
        h.sent, fun c hc => ?_, h.looks⟩
      rw [← h.joined c hc]
      simp only [Sys.onBroker, List.mem_cons, hd, hc, false_or]
  | leave c o o' =>
    have hc : c = s := by simpa [ofOnlooker] using ho
    subst hc
    simp only [Sys.act] at hz
    obtain ⟨-, rfl⟩ := onDealer_some hz
    exact ⟨h.broker.mine (w := w) hg (op := .remove c o) (by simp [Broker.listens]), (h.dealer.goes (w := w) o').2, h.client, h.up, h.down,
      h.sent, h.joined, h.looks⟩
  | disclose p c => simp [ofOnlooker] at ho
  | send c data m =>
    have hc : c = s ∧ onlooks T m = true := by simpa [ofOnlooker] using ho
    obtain ⟨rfl, hm⟩ := hc
    simp only [Sys.act] at hz
    split at hz
    · split at hz
      · cases hz
        refine ⟨h.broker, h.dealer, fun d hd => ?_, fun d hd => ?_, h.down, fun d hd => ?_, h.joined, fun m' hm' => ?_⟩
        · rw [← h.client d hd]; exact upd_other _ _ hd
        · rw [← h.up d hd]; exact upd_other _ _ hd
        · rw [← h.sent d hd]; exact upd_other _ _ hd
        · rw [show Sys.up _ c = y.up c ++ [m] from upd_same _ _ _] at hm'
          rcases List.mem_append.1 hm' with e | e
          · exact h.looks m' e
          · rw [List.mem_singleton.1 e]; exact hm
      · cases hz
    · cases hz
  | deliver c =>
    have hc : c = s := by simpa [ofOnlooker] using ho
    subst hc
    simp only [Sys.act] at hz
    split at hz
    · cases hz
    · cases hz
      refine ⟨h.broker, h.dealer, fun d hd => ?_, h.up, fun d hd => ?_, h.sent, h.joined, h.looks⟩
      · rw [← h.client d hd]; exact upd_other _ _ hd
      · rw [← h.down d hd]; exact upd_other _ _ hd
  | route c wo so rnd =>
    have hc : c = s := by simpa [ofOnlooker] using ho
    subst hc
    simp only [Sys.act] at hz
    split at hz
    · cases hz
    · rename_i m rest hu
      have hm : onlooks T m = true := h.looks m (by rw [hu]; exact List.mem_cons_self)
      have hrest : ∀ m' ∈ rest, onlooks T m' = true := fun m' e => h.looks m' (by rw [hu]; exact List.mem_cons_of_mem _ e)
      have hup : ∀ d, d ≠ c → upd y.up c rest d = x.up d := fun d hd => by rw [upd_other _ _ hd, h.up d hd]
      have hlk : ∀ m' ∈ upd y.up c rest c, onlooks T m' = true := by rw [upd_same]; exact hrest
      have key : ∀ {r : Res Broker.Out}, (∃ v, r = .ok (.msg v c)) ∨ r = .err → ∀ d, d ≠ c → y.down d ++ messagesFor d (brokerOut r) = x.down d := by
        rintro r (⟨v, rfl⟩ | rfl) d hd
        · simp only [brokerOut, messagesFor_one, if_neg (Ne.symm hd), List.append_nil, h.down d hd]
        · simp only [brokerOut, messagesFor_nil, List.append_nil, h.down d hd]
      cases m with
      | subscribe q o t =>
        simp only [Sys.handle] at hz
        cases hz
        refine ⟨h.broker.mine (w := w) hg (op := .receive c (.subscribe q o t)) (by simpa [Broker.listens, onlooks] using hm), h.dealer, h.client, hup,
          key ?_, h.sent, h.joined, hlk⟩
        simp only [Broker.step, Broker.receive, Broker.subscribe]
        cases y.broker.bySession c with
        | none => exact .inr rfl
        | some v => cases y.broker.byTopic t <;> exact .inl ⟨_, rfl⟩
      | unsubscribe q i =>
        simp only [Sys.handle] at hz
        cases hz
        refine ⟨h.broker.mine (w := w) hg (op := .receive c (.unsubscribe q i)) (by simp [Broker.listens]), h.dealer, h.client, hup,
          key ?_, h.sent, h.joined, hlk⟩
        simp only [Broker.step, Broker.receive, Broker.unsubscribe]
        cases y.broker.bySession c with
        | none => exact .inr rfl
        | some v => cases hv : AMap.get v i <;> simp only [hv] <;> first | exact .inr rfl | exact .inl ⟨_, rfl⟩
      | publish => simp [onlooks] at hm
      | call => simp [onlooks] at hm
      | yield => simp [onlooks] at hm
      | register => simp [onlooks] at hm
      | unregister => simp [onlooks] at hm
      | error => simp [onlooks] at hm
      | _ =>
        simp only [Sys.handle] at hz
        cases hz
        exact ⟨h.broker, h.dealer, h.client, hup, h.down, h.sent, h.joined, hlk⟩

/-- An action of another client. -/
theorem Same.other (h : Same s a T x y) (hT : Steady w a T x) (hlen : x.bh.length ≤ 2 ^ 53) {act : Action} (ho : remains s a act = true)
    (hz : y.act w act = some z) : ∃ x', x.act w act = some x' ∧ Same s a T x' z ∧ Steady w a T x' ∧ x'.bh.length ≤ x.bh.length + 1 := by
  have hr := hT.reach
  have hh := (reach_hist hr).1
  have keep : ∀ {op : Broker.Op}, Broker.stays s a op = true → ∀ t ∈ T, ∃ i p,
      Broker.current (⟨op, (Broker.step w x.broker op).2⟩ :: x.bh) a t = some i ∧
      Broker.policy (⟨op, (Broker.step w x.broker op).2⟩ :: x.bh) i = some p ∧ p ≠ str "prefix" ∧ p ≠ str "wildcard" := by
    intro op hs t ht
    obtain ⟨i, p, k1, k2, k3⟩ := hT.topics t ht
    obtain ⟨k4, k5⟩ := steady (w := w) hh hlen k1 k2 hs
    exact ⟨i, p, k4, k5, k3⟩
  have fin : ∀ {x' : Sys}, x.act w act = some x' → Same s a T x' z →
      (∀ t ∈ T, ∃ i p, Broker.current x'.bh a t = some i ∧ Broker.policy x'.bh i = some p ∧ p ≠ str "prefix" ∧ p ≠ str "wildcard") →
      (∀ m ∈ x'.up a, givesUp m = false) → x'.bh.length ≤ x.bh.length + 1 →
      ∃ x', x.act w act = some x' ∧ Same s a T x' z ∧ Steady w a T x' ∧ x'.bh.length ≤ x.bh.length + 1 :=
    fun e1 e2 e3 e4 e5 => ⟨_, e1, e2, ⟨.act act hr e1, e3, e4⟩, e5⟩
  cases act with
  | join d =>
    have hd : d.id ≠ s := by simpa [remains] using ho
    simp only [Sys.act] at hz fin ⊢
    split at hz
    · cases hz
    · rename_i hj
      obtain ⟨h1, rfl⟩ := onDealer_some hz
      have hst : Broker.stays s a (.add d) = true := by simp [Broker.stays, hd]
      obtain ⟨e1, e2⟩ := h.brokers hr hlen hst
      obtain ⟨e3, e4⟩ := h.dealer.other (w := w) (op := .add d) hd
      have h1 : (Dealer.step w x.dealer (.add d)).2 ≠ .panic := by rw [← e3]; exact h1
      have hx := onDealer_of (x := ({ x with joined := d.id :: x.joined } : Sys).onBroker w (.add d)) h1
      have hj : d.id ∉ x.joined := by rw [← h.joined _ hd]; exact hj
      rw [if_neg hj] at fin ⊢
      refine fin hx ⟨e2, e4, h.client, h.up, h.down, h.sent, fun c hc => ?_, h.looks⟩ (keep hst) hT.keeps (Nat.le_refl _)
      simp only [Sys.onBroker, List.mem_cons, h.joined c hc]
  | leave c o o' =>
    have hc : c ≠ s ∧ c ≠ a := by simpa [remains] using ho
    simp only [Sys.act] at hz fin ⊢
    obtain ⟨h1, rfl⟩ := onDealer_some hz
    have hst : Broker.stays s a (.remove c o) = true := by simp [Broker.stays, hc]
    obtain ⟨e1, e2⟩ := h.brokers hr hlen hst
    obtain ⟨e3, e4⟩ := h.dealer.other (w := w) (op := .remove c o') hc.1
    have h1 : (Dealer.step w x.dealer (.remove c o')).2 ≠ .panic := by rw [← e3]; exact h1
    exact fin (onDealer_of (x := x.onBroker w (.remove c o)) h1) ⟨e2, e4, h.client, h.up, h.down, h.sent, h.joined, h.looks⟩ (keep hst) hT.keeps
      (Nat.le_refl _)
  | disclose p c =>
    simp only [Sys.act] at hz fin ⊢
    obtain ⟨h1, rfl⟩ := onDealer_some hz
    have hst : Broker.stays s a (.disclose p) = true := rfl
    obtain ⟨e1, e2⟩ := h.brokers hr hlen hst
    obtain ⟨e3, e4⟩ := h.dealer.other (w := w) (op := .disclose c) trivial
    have h1 : (Dealer.step w x.dealer (.disclose c)).2 ≠ .panic := by rw [← e3]; exact h1
    exact fin (onDealer_of (x := x.onBroker w (.disclose p)) h1) ⟨e2, e4, h.client, h.up, h.down, h.sent, h.joined, h.looks⟩ (keep hst) hT.keeps
      (Nat.le_refl _)
  | send c data m =>
    have hc : c ≠ s ∧ (¬c = a ∨ givesUp m = false) := by simpa [remains] using ho
    have hc : c ≠ s ∧ (c = a → givesUp m = false) := ⟨hc.1, fun e => hc.2.resolve_left fun c => c e⟩
    simp only [Sys.act, h.client c hc.1, h.joined c hc.1] at hz
    simp only [Sys.act] at fin ⊢
    split at hz
    · rename_i st v hv
      split at hz
      · rename_i hj
        cases hz
        simp only [hv, if_pos hj] at fin ⊢
        refine fin rfl ⟨h.broker, h.dealer, upd_off h.client _ _, ?_, h.down, ?_, h.joined, ?_⟩ hT.topics ?_ (Nat.le_succ _)
        · dsimp only; rw [h.up c hc.1]; exact upd_off h.up _ _
        · dsimp only; rw [h.sent c hc.1]; exact upd_off h.sent _ _
        · dsimp only; rw [upd_other _ _ (Ne.symm hc.1)]; exact h.looks
        · intro m' hm'
          have hm' : m' ∈ upd x.up c (x.up c ++ [m]) a := hm'
          simp only [upd] at hm'
          split at hm'
          · rename_i e
            rcases List.mem_append.1 hm' with e' | e'
            · exact hT.keeps m' (by rw [e]; exact e')
            · rw [List.mem_singleton.1 e']; exact hc.2 e.symm
          · exact hT.keeps m' hm'
      · cases hz
    · cases hz
  | deliver c =>
    have hc : c ≠ s := by simpa [remains] using ho
    simp only [Sys.act, h.down c hc, h.client c hc] at hz
    simp only [Sys.act] at fin ⊢
    split at hz
    · cases hz
    · rename_i m rest hv
      cases hz
      simp only [hv] at fin ⊢
      exact fin rfl ⟨h.broker, h.dealer, upd_off h.client _ _, h.up, upd_off h.down _ _, h.sent, h.joined, h.looks⟩ hT.topics hT.keeps
        (Nat.le_succ _)
  | route c wo so rnd =>
    have hc : c ≠ s := by simpa [remains] using ho
    simp only [Sys.act, h.up c hc] at hz
    simp only [Sys.act] at fin ⊢
    split at hz
    · cases hz
    · rename_i m rest hv
      simp only [hv] at fin ⊢
      have hm : c = a → givesUp m = false := fun e => hT.keeps m (by rw [← e, hv]; exact List.mem_cons_self)
      have hks : ∀ m' ∈ upd x.up c rest a, givesUp m' = false := by
        intro m' hm'
        simp only [upd] at hm'
        split at hm'
        · rename_i e; exact hT.keeps m' (by rw [e, hv]; exact List.mem_cons_of_mem _ hm')
        · exact hT.keeps m' hm'
      have hlk : ∀ m' ∈ upd y.up c rest s, onlooks T m' = true := by rw [upd_other _ _ (Ne.symm hc)]; exact h.looks
      have onB : ∀ op, Broker.stays s a op = true →
          z = (({ y with up := upd y.up c rest } : Sys).onBroker w op).post (brokerOut (Broker.step w y.broker op).2) →
          ({ x with up := upd x.up c rest } : Sys).handle w c m wo so rnd =
            some ((({ x with up := upd x.up c rest } : Sys).onBroker w op).post (brokerOut (Broker.step w x.broker op).2)) →
          ∃ x', ({ x with up := upd x.up c rest } : Sys).handle w c m wo so rnd = some x' ∧ Same s a T x' z ∧ Steady w a T x' ∧
            x'.bh.length ≤ x.bh.length + 1 := by
        rintro op hst rfl hx
        obtain ⟨e1, e2⟩ := h.brokers hr hlen hst
        refine fin hx ⟨e2, h.dealer, h.client, upd_off h.up _ _, fun d hd => ?_, h.sent, h.joined, hlk⟩ (keep hst) hks (Nat.le_refl _)
        show y.down d ++ messagesFor d (brokerOut (Broker.step w y.broker op).2) = x.down d ++ messagesFor d (brokerOut (Broker.step w x.broker op).2)
        rw [← e1, out_same hd, h.down d hd]
      have onD : ∀ op, others s op →
          ((({ y with up := upd y.up c rest } : Sys).onDealer w op).map fun v => v.post (dealerOut (Dealer.step w y.dealer op).2)) = some z →
          ({ x with up := upd x.up c rest } : Sys).handle w c m wo so rnd =
            ((({ x with up := upd x.up c rest } : Sys).onDealer w op).map fun v => v.post (dealerOut (Dealer.step w x.dealer op).2)) →
          ∃ x', ({ x with up := upd x.up c rest } : Sys).handle w c m wo so rnd = some x' ∧ Same s a T x' z ∧ Steady w a T x' ∧
            x'.bh.length ≤ x.bh.length + 1 := by
        intro op hst hz hx
        obtain ⟨v, hv', rfl⟩ := Option.map_eq_some_iff.1 hz
        obtain ⟨h1, rfl⟩ := onDealer_some hv'
        obtain ⟨e3, e4⟩ := h.dealer.other (w := w) (op := op) hst
        have h1 : (Dealer.step w x.dealer op).2 ≠ .panic := by rw [← e3]; exact h1
        rw [onDealer_of (x := { x with up := upd x.up c rest }) h1, Option.map_some] at hx
        refine fin hx ⟨h.broker, e4, h.client, upd_off h.up _ _, fun d hd => ?_, h.sent, h.joined, hlk⟩ hT.topics hks (Nat.le_succ _)
        show y.down d ++ messagesFor d (dealerOut (Dealer.step w y.dealer op).2) = x.down d ++ messagesFor d (dealerOut (Dealer.step w x.dealer op).2)
        rw [e3, h.down d hd]
      cases m with
      | publish q o t args kw => 
        simp only [Sys.handle] at hz
        cases hz
        exact onB (.publish c q o t args kw wo so) (by simpa [Broker.stays] using hc) rfl rfl
      | subscribe q o t =>
        simp only [Sys.handle] at hz
        cases hz
        exact onB (.receive c (.subscribe q o t)) (by simpa [Broker.stays] using hc) rfl rfl
      | unsubscribe q i =>
        simp only [Sys.handle] at hz
        cases hz
        have hca : c ≠ a := fun e => by simpa [givesUp] using hm e
        exact onB (.receive c (.unsubscribe q i)) (by simp [Broker.stays, hc, hca]) rfl rfl
      | call => exact onD (.receive c _ wo rnd) hc hz rfl
      | yield => exact onD (.receive c _ wo rnd) hc hz rfl
      | register => exact onD (.receive c _ wo rnd) hc hz rfl
      | unregister => exact onD (.receive c _ wo rnd) hc hz rfl
      | error => exact onD (.receive c _ wo rnd) hc hz rfl
      | _ =>
        simp only [Sys.handle] at hz
        cases hz
        exact fin rfl ⟨h.broker, h.dealer, h.client, upd_off h.up _ _, h.down, h.sent, h.joined, hlk⟩ hT.topics hks (Nat.le_succ _)

theorem session_none {bh : List Broker.Event} {op : Broker.Op} (h : Broker.session bh s = none) (ho : ∀ d, op = .add d → d.id ≠ s) (r : Res Broker.Out) :
    Broker.session (⟨op, r⟩ :: bh) s = none := by
  cases op with
  | add d => cases r <;> simp only [Broker.session, if_neg (ho d rfl), h]
  | remove c o =>
    cases r <;> simp only [Broker.session, h]
    split <;> rfl
  | _ => simp only [Broker.session, h]

/-- Who has not joined has left no trace. -/
theorem absent (hr : Reach w x) : s ∉ x.joined → x.up s = [] ∧ Off s x.dealer x.dealer ∧ Broker.session x.bh s = none := by
  induction hr with
  | new =>
    intro _
    exact ⟨rfl, ⟨⟨fun p hp => (by cases hp), fun i q hq => (by cases hq)⟩, rfl, fun _ _ => rfl, fun _ _ => rfl, .inl rfl⟩, rfl⟩
  | @act x y act hr hy ih =>
    intro hs
    cases act with
    | join d =>
      simp only [Sys.act] at hy
      split at hy
      · cases hy
      · obtain ⟨-, rfl⟩ := onDealer_some hy
        have hs : s ∉ d.id :: x.joined := hs
        rw [List.mem_cons, not_or] at hs
        obtain ⟨h1, h2, h3⟩ := ih hs.2
        exact ⟨h1, (h2.other (w := w) (op := .add d) (Ne.symm hs.1)).2, session_none h3 (fun d' e => by cases e; exact Ne.symm hs.1) _⟩
    | leave c o o' =>
      simp only [Sys.act] at hy
      obtain ⟨-, rfl⟩ := onDealer_some hy
      obtain ⟨h1, h2, h3⟩ := ih hs
      refine ⟨h1, ?_, session_none h3 (fun d e => by cases e) _⟩
      by_cases hc : c = s
      · subst hc
        exact (h2.goes (w := w) o').2.self
      · exact (h2.other (w := w) (op := .remove c o') hc).2
    | disclose p c =>
      simp only [Sys.act] at hy
      obtain ⟨-, rfl⟩ := onDealer_some hy
      obtain ⟨h1, h2, h3⟩ := ih hs
      exact ⟨h1, (h2.other (w := w) (op := .disclose c) trivial).2, session_none h3 (fun d e => by cases e) _⟩
    | send c data m =>
      simp only [Sys.act] at hy
      split at hy
      · split at hy
        · rename_i hj
          cases hy
          obtain ⟨h1, h2, h3⟩ := ih hs
          have hc : s ≠ c := fun e => hs (e ▸ hj)
          exact ⟨by dsimp only; rw [upd_other _ _ hc]; exact h1, h2, h3⟩
        · cases hy
      · cases hy
    | deliver c =>
      simp only [Sys.act] at hy
      split at hy
      · cases hy
      · cases hy
        exact ih hs
    | route c wo so rnd =>
      have hj : y.joined = x.joined := by
        have hch := act_change hy
        simp only [Sys.act] at hy
        split at hy
        · cases hy
        · rename_i m rest hu
          have hd : ∀ op, (({ x with up := upd x.up c rest } : Sys).onDealer w op).map
              (fun v => v.post (dealerOut (Dealer.step w x.dealer op).2)) = some y → y.joined = x.joined := by
            intro op e
            obtain ⟨v, hv, rfl⟩ := Option.map_eq_some_iff.1 e
            obtain ⟨-, rfl⟩ := onDealer_some hv
            rfl
          cases m <;> simp only [Sys.handle] at hy <;> first | exact hd _ hy | (cases hy; rfl)
      rw [hj] at hs
      obtain ⟨h1, h2, h3⟩ := ih hs
      simp only [Sys.act] at hy
      split at hy
      · cases hy
      · rename_i m rest hu
        have hc : c ≠ s := fun e => by rw [e, h1] at hu; cases hu
        have hup : upd x.up c rest s = [] := by rw [upd_other _ _ (Ne.symm hc)]; exact h1
        have hd : ∀ op, others s op → (({ x with up := upd x.up c rest } : Sys).onDealer w op).map
            (fun v => v.post (dealerOut (Dealer.step w x.dealer op).2)) = some y →
            y.up s = [] ∧ Off s y.dealer y.dealer ∧ Broker.session y.bh s = none := by
          intro op ho e
          obtain ⟨v, hv, rfl⟩ := Option.map_eq_some_iff.1 e
          obtain ⟨-, rfl⟩ := onDealer_some hv
          exact ⟨hup, (h2.other (w := w) (op := op) ho).2, h3⟩
        cases m <;> simp only [Sys.handle] at hy <;> first
          | exact hd (.receive c _ wo rnd) hc hy
          | (cases hy; exact ⟨hup, h2, h3⟩)
          | (cases hy; exact ⟨hup, h2, session_none h3 (fun d e => by cases e) _⟩)

theorem run_main : ∀ (acts : List Action) {x y z : Sys}, Same s a T x y → Steady w a T x → x.bh.length + acts.length ≤ 2 ^ 53 →
    (∀ act ∈ acts, ofOnlooker s T act = true ∨ remains s a act = true) → y.run w acts = some z →
    ∃ z', x.run w (acts.filter fun act => !ofOnlooker s T act) = some z' ∧ Same s a T z' z
  | [], x, y, z, h, _, _, _, hz => by
    cases hz
    exact ⟨x, rfl, h⟩
  | act :: acts, x, y, z, h, hT, hlen, ho, hz => by
    simp only [List.length_cons] at hlen
    simp only [Sys.run] at hz
    obtain ⟨y1, h1, h2⟩ := Option.bind_eq_some_iff.1 hz
    have ho' : ∀ act ∈ acts, ofOnlooker s T act = true ∨ remains s a act = true := fun v hv => ho v (List.mem_cons_of_mem _ hv)
    by_cases hl : ofOnlooker s T act = true
    · simp only [List.filter_cons, hl, Bool.not_true, Bool.false_eq_true, if_false]
      exact run_main acts (h.mine hT (by omega) hl h1) hT (by omega) ho' h2
    · obtain ⟨x1, e1, e2, e3, e4⟩ := h.other hT (by omega) ((ho act List.mem_cons_self).resolve_left hl) h1
      have hl' : ofOnlooker s T act = false := by simpa using hl
      simp only [List.filter_cons, hl', Bool.not_false, if_true, Sys.run, e1, Option.bind_some]
      exact run_main acts e2 e3 (by omega) ho' h2

end Onlooker

/-- **C167.** A client that only listens goes unnoticed.  Client `s` joins a router, subscribes to and unsubscribes from topics to which client `a`
is subscribed (not as patterns), is removed, or does whatever else does not concern the others, while they do what they like, except that `a`
neither unsubscribes nor leaves.  Then everything can happen in the same way without `s`, and for the others nothing is different: they send and get
the same messages, the same messages are under way, and their sessions end up in the same states. -/
theorem C167_onlooker {x y : Sys} (hr : Reach w x) (s a : Nat) (T : List Str) (acts : List Action) (hlen : x.bh.length + acts.length ≤ 2 ^ 53)
    (hs : s ∉ x.joined)
    (hT : ∀ t ∈ T, ∃ i p, Broker.current x.bh a t = some i ∧ Broker.policy x.bh i = some p ∧ p ≠ str "prefix" ∧ p ≠ str "wildcard")
    (ha : ∀ m ∈ x.up a, givesUp m = false)
    (ho : ∀ act ∈ acts, ofOnlooker s T act = true ∨ remains s a act = true) (hy : x.run w acts = some y) :
    ∃ y', x.run w (acts.filter fun act => !ofOnlooker s T act) = some y' ∧
      ∀ c, c ≠ s → y'.client c = y.client c ∧ y'.sent c = y.sent c ∧ y'.up c = y.up c ∧ y'.down c = y.down c := by
  obtain ⟨h1, h2, h3⟩ := Onlooker.absent hr hs
  have hrel : Broker.Listener.Rel s a x.broker x.broker := Broker.Listener.alone (reach_hist hr).1 (by unfold maxID; omega) (by
    unfold Broker.attached; rw [h3]; exact Bool.false_ne_true)
  obtain ⟨z, e1, e2⟩ := Onlooker.run_main (w := w) (s := s) (a := a) (T := T) acts
    ⟨hrel, h2, fun _ _ => rfl, fun _ _ => rfl, fun _ _ => rfl, fun _ _ => rfl, fun _ _ => Iff.rfl, fun m hm => by rw [h1] at hm; cases hm⟩
    ⟨hr, hT, ha⟩ hlen ho hy
  exact ⟨z, e1, fun c hc => ⟨(e2.client c hc).symm, (e2.sent c hc).symm, (e2.up c hc).symm, (e2.down c hc).symm⟩⟩

/-- Clients 1 and 2 have joined, client 1 is subscribed to `t`. -/
private def before : List Action := [.join (Dealer.who 1), .join (Dealer.who 2)] ++ does 1 (.subscribe 1 none (str "t")) ++ [.deliver 1]
/-- Client 3 joins, listens to `t`, stops listening and is removed, while client 2 publishes and client 1 registers a procedure. -/
private def meanwhile : List Action := [.join (Dealer.who 3)] ++ does 3 (.subscribe 1 none (str "t")) ++ [.deliver 3] ++
  does 2 (.publish 1 none (str "t") none none) ++ [.deliver 3] ++ does 1 (.register 2 none (str "p")) ++ does 3 (.unsubscribe 2 1) ++
  [.leave 3 [] [], .deliver 1, .deliver 1] ++ does 2 (.publish 2 none (str "t") none none)

example : 3 ∉ (done before).joined ∧ Broker.current (done before).bh 1 (str "t") = some 1 ∧ Broker.policy (done before).bh 1 = some [] ∧
    (done before).up 1 = [] ∧ ((done before).run Dealer.noWild meanwhile).isSome = true ∧
    nextFor (done (before ++ meanwhile)) 1 = some (36, 1, true) ∧
    nextFor (done (before ++ meanwhile.filter fun act => !ofOnlooker 3 [str "t"] act)) 1 = some (36, 1, true) := by
  refine ⟨by decide +kernel, by decide +kernel, by decide +kernel, rfl, by decide +kernel, by decide +kernel, by decide +kernel⟩

example : ∀ act ∈ meanwhile, ofOnlooker 3 [str "t"] act = true ∨ remains 3 1 act = true := by
  intro act h
  simp only [meanwhile, does, List.cons_append, List.nil_append, List.mem_cons, List.not_mem_nil, or_false] at h
  rcases h with rfl | rfl | rfl | rfl | rfl | rfl | rfl | rfl | rfl | rfl | rfl | rfl | rfl | rfl | rfl | rfl <;> decide +kernel

/-- A client that listens to a pattern is noticed: after it left, client 1 gets no event, although it is subscribed to the pattern, too (C72). -/
theorem C167_pattern_refuted :
    let pre : List Action := [.join (Dealer.who 1), .join (Dealer.who 2)] ++
      does 1 (.subscribe 1 (some [(str "match", .str (str "prefix"))]) (str "a")) ++ [.deliver 1]
    let acts : List Action := [.join (Dealer.who 3)] ++ does 3 (.subscribe 1 (some [(str "match", .str (str "prefix"))]) (str "a")) ++ [.leave 3 [] []] ++
      does 2 (.publish 1 none (str "ab") none none)
    nextFor (done (pre ++ acts)) 1 = none ∧
    nextFor (done (pre ++ acts.filter fun act => !ofOnlooker 3 [str "a"] act)) 1 = some (36, 1, true) := by
  decide +kernel

end Wamp.System
