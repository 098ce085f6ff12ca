import Verif.Spec.People
/-!
# C163: who the clients are makes no difference
-/
namespace Wamp
variable {w : Str → Str → Bool} (c : People)

namespace Broker

/-- The broker with the other people. -/
private def State.with (b : State) : State := { b with sessions := fun s => (b.sessions s).map c.session }

private theorem addSession_with (b : State) (d : SessionDetails) : addSession (b.with c) (c.session d) = ((addSession b d).1.with c, (addSession b d).2) := by
  unfold addSession
  show (if (b.bySession d.id).isSome then _ else _) = _
  split
  · rfl
  · refine Prod.ext ?_ rfl
    show State.mk _ _ _ _ _ _ _ _ _ = State.mk _ _ _ _ _ _ _ _ _
    congr 1
    funext x
    simp only [FMap.set, State.with, show (c.session d).id = d.id from rfl]
    split <;> rfl

private theorem removeStep_with (s : Nat) (b : State) (a : Nat) : removeStep s (b.with c) a = (removeStep s b a).map (State.with c) := by
  unfold removeStep
  simp only [show (b.with c).byTopic = b.byTopic from rfl, show (b.with c).heap = b.heap from rfl]
  cases b.byTopic (b.heap a).topic <;> rfl

private theorem removeLoop_with (s : Nat) (l : List Nat) (b : State) : removeLoop s (b.with c) l = (removeLoop s b l).map (State.with c) := by
  induction l generalizing b with
  | nil => rfl
  | cons a l ih =>
    simp only [removeLoop, removeStep_with]
    cases removeStep s b a with
    | ok b' => exact ih b'
    | err => rfl
    | panic => rfl

private theorem removeSession_with (b : State) (s : Nat) (o : List Nat) :
    removeSession (b.with c) s o = ((removeSession b s o).1.with c, (removeSession b s o).2) := by
  unfold removeSession
  rw [show (b.with c).bySession s = b.bySession s from rfl]
  cases b.bySession s with
  | none => rfl
  | some m =>
    have h' : ({ b.with c with bySession := (b.with c).bySession.del s } : State) = State.with c { b with bySession := b.bySession.del s } := rfl
    simp only [h', removeLoop_with]
    cases removeLoop s { b with bySession := b.bySession.del s } ((arrange o m.keys).filterMap m.get) with
    | ok b' =>
      refine Prod.ext ?_ rfl
      show State.mk _ _ _ _ _ _ _ _ _ = State.mk _ _ _ _ _ _ _ _ _
      congr 1
      funext x
      simp only [FMap.del, State.with]
      split <;> rfl
    | err => rfl
    | panic => rfl

private theorem subscribe_with (b : State) (s q : Nat) (o : GoMap) (t : Str) :
    subscribe (b.with c) s q o t = ((subscribe b s q o t).1.with c, (subscribe b s q o t).2) := by
  unfold subscribe
  rw [show (b.with c).bySession s = b.bySession s from rfl]
  cases b.bySession s with
  | none => rfl
  | some m =>
    rw [show (b.with c).byTopic t = b.byTopic t from rfl]
    cases b.byTopic t <;> rfl

private theorem unsubscribe_with (b : State) (s q i : Nat) :
    unsubscribe (b.with c) s q i = ((unsubscribe b s q i).1.with c, (unsubscribe b s q i).2) := by
  unfold unsubscribe
  rw [show (b.with c).bySession s = b.bySession s from rfl]
  cases b.bySession s with
  | none => rfl
  | some m =>
    simp only
    cases m.get i with
    | none => rfl
    | some p => rfl

private theorem eventDetails_with (b : State) (s : Nat) (t : Str) : eventDetails (b.with c) s t =
    (eventDetails b s t).map fun d => People.under "publisher_authid" c.authID (People.under "publisher_authrole" c.authRole d) := by
  unfold eventDetails
  rw [show (b.with c).details = b.details from rfl, show (b.with c).sessions s = (b.sessions s).map c.session from rfl]
  cases b.details with
  | false => rfl
  | true => cases b.sessions s <;> rfl

private theorem publish_with (b : State) (s q : Nat) (o : GoMap) (t : Str) (a : GoSlice) (k : GoMap) (wo : List Str) (so : List Nat) :
    publish w (b.with c) s q o t a k wo so =
      ((publish w b s q o t a k wo so).1.with c, (publish w b s q o t a k wo so).2.map fun p => ⟨p.event.map c.msg, p.recipients, p.ack⟩) := by
  unfold publish
  rw [show (b.with c).bySession s = b.bySession s from rfl]
  cases b.bySession s with
  | none => rfl
  | some m =>
    simp only [eventDetails_with, show lookup w wo (b.with c) t = lookup w wo b t from rfl, show (b.with c).heap = b.heap from rfl]
    cases lookup w wo b t with
    | none => cases o.flag (str "acknowledge") <;> rfl
    | some p =>
      simp only
      split
      · cases o.flag (str "acknowledge") <;> rfl
      · cases eventDetails b s t with
        | ok d => cases o.flag (str "acknowledge") <;> rfl
        | err => rfl
        | panic => rfl

private theorem step_with (b : State) (op : Op) : step w (b.with c) (c.brokerOp op) = ((step w b op).1.with c, (step w b op).2.map c.brokerOut) := by
  cases op with
  | add d =>
    simp only [People.brokerOp, step, addSession_with]
    cases (addSession b d).2 <;> rfl
  | remove s o =>
    simp only [People.brokerOp, step, removeSession_with]
    cases (removeSession b s o).2 <;> rfl
  | has t => rfl
  | disclose on => rfl
  | receive s m =>
    cases m with
    | subscribe q o t =>
      simp only [People.brokerOp, step, receive, subscribe_with]
      cases (subscribe b s q o t).2 <;> rfl
    | unsubscribe q i =>
      simp only [People.brokerOp, step, receive, unsubscribe_with]
      cases (unsubscribe b s q i).2 <;> rfl
    | _ => rfl
  | publish s q o t a k wo so =>
    simp only [People.brokerOp, step, publish_with]
    cases (publish w b s q o t a k wo so).2 <;> rfl

end Broker

namespace Dealer

/-- The dealer with the other people. -/
private def State.with (b : State) : State := { b with sessions := fun s => (b.sessions s).map c.session }

private theorem addSession_with (b : State) (d : SessionDetails) : addSession (b.with c) (c.session d) = ((addSession b d).1.with c, (addSession b d).2) := by
  unfold addSession
  show (if ((b.sessions d.id).map c.session).isSome then _ else _) = _
  rw [Option.isSome_map]
  split
  · rfl
  · refine Prod.ext ?_ rfl
    show State.mk _ _ _ _ _ _ _ _ _ _ _ = State.mk _ _ _ _ _ _ _ _ _ _ _
    congr 1
    funext x
    simp only [FMap.set, State.with, show (c.session d).id = d.id from rfl]
    split <;> rfl

private theorem removeStep_with (s : Nat) (b : State) (a : Nat) : removeStep s (b.with c) a = (removeStep s b a).map (State.with c) := by
  unfold removeStep
  simp only [show (b.with c).byProc = b.byProc from rfl, show (b.with c).heap = b.heap from rfl]
  cases b.byProc (b.heap a).procedure with
  | none => rfl
  | some p =>
    simp only [show (b.with c).heap = b.heap from rfl]
    cases surgery s (b.heap p).callees.length 0 (b.heap p).callees (b.heap p).callees.length <;> rfl

private theorem removeLoop_with (s : Nat) (l : List Nat) (b : State) : removeLoop s (b.with c) l = (removeLoop s b l).map (State.with c) := by
  induction l generalizing b with
  | nil => rfl
  | cons a l ih =>
    simp only [removeLoop, removeStep_with]
    cases removeStep s b a with
    | ok b' => exact ih b'
    | err => rfl
    | panic => rfl

private theorem removeSession_with (b : State) (s : Nat) (o : List Nat) :
    removeSession (b.with c) s o = ((removeSession b s o).1.with c, (removeSession b s o).2) := by
  unfold removeSession
  rw [show (b.with c).sessions s = (b.sessions s).map c.session from rfl]
  cases b.sessions s with
  | none => rfl
  | some d =>
    simp only [Option.map_some, removeLoop_with, show (b.with c).bySession = b.bySession from rfl]
    cases removeLoop s b ((arrange o ((b.bySession s).getD []).keys).filterMap ((b.bySession s).getD []).get) with
    | ok b' =>
      refine Prod.ext ?_ rfl
      show State.mk _ _ _ _ _ _ _ _ _ _ _ = State.mk _ _ _ _ _ _ _ _ _ _ _
      congr 1
      funext x
      simp only [FMap.del, State.with]
      split <;> rfl
    | err => rfl
    | panic => rfl

private theorem yield_with (b : State) (q : Nat) (o : GoMap) (a : GoSlice) (k : GoMap) (bin : Bin) :
    yield (b.with c) q o a k bin = ((yield b q o a k bin).1.with c, (yield b q o a k bin).2.map fun x => (c.msg x.1, x.2)) := by
  unfold yield
  rw [show (b.with c).pending = b.pending from rfl]
  cases b.pending.get q with
  | none => rfl
  | some p =>
    simp only [show (b.with c).sessions p.callerID = (b.sessions p.callerID).map c.session from rfl]
    cases b.sessions p.callerID with
    | none => cases (p.receiveProgress && o.flag optProgress) <;> rfl
    | some d =>
      simp only [Option.map_some, People.session]
      cases (p.receiveProgress && o.flag optProgress) <;> cases (bin.binary && d.static) <;> rfl

private theorem register_with (b : State) (s q : Nat) (o : GoMap) (t : Str) :
    register (b.with c) s q o t = ((register b s q o t).1.with c, (register b s q o t).2.map fun x => (c.msg x.1, x.2)) := by
  unfold register
  rw [show (b.with c).bySession s = b.bySession s from rfl]
  cases b.bySession s with
  | none => rfl
  | some m =>
    rw [show (b.with c).byProc t = b.byProc t from rfl]
    cases b.byProc t with
    | some p =>
      simp only
      show (if (b.heap p).policy = [] ∨ (b.heap p).policy = invokeSingle ∨ (b.heap p).policy ≠ o.text optInvoke then _ else _) = _
      split <;> rfl
    | none => rfl

private theorem unregister_with (b : State) (s q i : Nat) :
    unregister (b.with c) s q i = ((unregister b s q i).1.with c, (unregister b s q i).2.map fun x => (c.msg x.1, x.2)) := by
  unfold unregister
  rw [show (b.with c).bySession s = b.bySession s from rfl]
  cases b.bySession s with
  | none => rfl
  | some m =>
    simp only
    split
    · rfl
    · cases m.get i with
      | none => rfl
      | some p =>
        simp only [show (b.with c).heap = b.heap from rfl]
        split <;> rfl

private theorem error_with (b : State) (t q : Nat) (d : GoMap) (u : Str) (a : GoSlice) (k : GoMap) :
    error (b.with c) t q d u a k = ((error b t q d u a k).1.with c, (error b t q d u a k).2.map fun x => (c.msg x.1, x.2)) := by
  unfold error
  split
  · rfl
  · rw [show (b.with c).pending = b.pending from rfl]
    cases b.pending.get q <;> rfl

private theorem details_with (d : Option SessionDetails) (s : Nat) (t : Str) (p q : Bool) :
    invocationDetails (d.map c.session) s t p q =
      People.under "caller_authid" c.authID (People.under "caller_authrole" c.authRole (invocationDetails d s t p q)) := by
  cases d <;> cases p <;> cases q <;> rfl

private theorem under_dset (k : String) (f : Str → Str) (k' : Str) (v : Val) (hk : k' ≠ str k) (d : Dict) :
    People.under k f (dset d k' v) = dset (People.under k f d) k' v := by
  induction d with
  | nil => simp [dset, People.under, hk]
  | cons x d ih =>
    obtain ⟨a, b⟩ := x
    have hc : ∀ (x : Str × Val) (d : Dict), People.under k f (x :: d) = (x.1, if x.1 = str k then (match x.2 with | .str t => .str (f t) | v => v) else x.2) :: People.under k f d :=
      fun _ _ => rfl
    by_cases h1 : k' = a
    · subst h1
      simp only [dset, if_true, hc, hk, if_false]
    · by_cases h2 : strLt k' a = true
      · simp only [dset, h1, if_false, h2, if_true, hc, hk]
      · simp only [dset, h1, if_false, h2, hc, ih, Bool.false_eq_true]

private theorem call_with (b : State) (s q : Nat) (o : GoMap) (t : Str) (a : GoSlice) (k : GoMap) (bin : Bin) (wo : List Str) (rnd : Nat) :
    call w (b.with c) s q o t a k bin wo rnd =
      ((call w b s q o t a k bin wo rnd).1.with c, (call w b s q o t a k bin wo rnd).2.map fun x => (c.msg x.1, x.2)) := by
  unfold call
  rw [show lookup w wo (b.with c) t = lookup w wo b t from rfl]
  cases lookup w wo b t with
  | none => rfl
  | some p =>
    simp only [show (b.with c).heap = b.heap from rfl]
    split
    · rfl
    · cases pick (b.heap p) rnd with
      | err => rfl
      | panic => rfl
      | ok x =>
        obtain ⟨callee, nc⟩ := x
        have hs : ∀ s, (b.with c).sessions s = (b.sessions s).map c.session := fun _ => rfl
        have hd : (b.with c).details = b.details := rfl
        have hi : (b.with c).invByCall = b.invByCall := rfl
        simp only [hs, hd, hi, Option.isNone_map]
        have hc : (if b.details = true then (b.sessions s).map c.session else none) = (if b.details = true then b.sessions s else none).map c.session := by
          cases b.details <;> rfl
        simp only [hc, details_with]
        split
        · rfl
        · cases b.sessions callee with
          | none => rfl
          | some d =>
            simp only [Option.map_some]
            rw [show (c.session d).static = d.static from rfl]
            split
            · refine Prod.ext rfl ?_
              show Res.ok (Msg.invocation _ _ (some (dset (People.under _ _ (People.under _ _ _)) _ _)) _ _ _, _) = _
              rw [← under_dset _ _ _ _ (by decide), ← under_dset _ _ _ _ (by decide)]
              rfl
            · rfl

private theorem step_with (b : State) (op : Op) : step w (b.with c) (c.dealerOp op) = ((step w b op).1.with c, (step w b op).2.map c.dealerOut) := by
  cases op with
  | add d =>
    simp only [People.dealerOp, step, addSession_with]
    cases (addSession b d).2 <;> rfl
  | remove s o =>
    simp only [People.dealerOp, step, removeSession_with]
    cases (removeSession b s o).2 <;> rfl
  | has t => rfl
  | disclose on => rfl
  | receive s m order rnd =>
    cases m with
    | call q o t a k bin =>
      simp only [People.dealerOp, step, receive, call_with]
      cases (call w b s q o t a k bin order rnd).2 <;> rfl
    | yield q o a k bin =>
      simp only [People.dealerOp, step, receive, yield_with]
      cases (yield b q o a k bin).2 <;> rfl
    | register q o t =>
      simp only [People.dealerOp, step, receive, register_with]
      cases (register b s q o t).2 <;> rfl
    | unregister q i =>
      simp only [People.dealerOp, step, receive, unregister_with]
      cases (unregister b s q i).2 <;> rfl
    | error t q d u a k =>
      simp only [People.dealerOp, step, receive, error_with]
      cases (error b t q d u a k).2 <;> rfl
    | _ => rfl

end Dealer

/-- **C163.** Who the clients are makes no difference to a broker: if they were other people, it would return the same results, with the new auth
IDs and roles where it discloses publishers. -/
theorem Broker.C163_broker (ops : List Broker.Op) :
    Broker.replies w Broker.init (ops.map c.brokerOp) = (Broker.replies w Broker.init ops).map (Res.map c.brokerOut) := by
  have h : ∀ (ops : List Broker.Op) (b : Broker.State), Broker.replies w (b.with c) (ops.map c.brokerOp) = (Broker.replies w b ops).map (Res.map c.brokerOut) := by
    intro ops
    induction ops with
    | nil => exact fun _ => rfl
    | cons op ops ih =>
      intro b
      simp only [List.map_cons, Broker.replies, Broker.step_with, ih]
  exact h ops Broker.init

/-- **C163.** Who the clients are makes no difference to a dealer: if they were other people, it would return the same results, with the new auth
IDs and roles where it discloses callers. -/
theorem Dealer.C163_dealer (ops : List Dealer.Op) :
    Dealer.replies w Dealer.init (ops.map c.dealerOp) = (Dealer.replies w Dealer.init ops).map (Res.map c.dealerOut) := by
  have h : ∀ (ops : List Dealer.Op) (b : Dealer.State), Dealer.replies w (b.with c) (ops.map c.dealerOp) = (Dealer.replies w b ops).map (Res.map c.dealerOut) := by
    intro ops
    induction ops with
    | nil => exact fun _ => rfl
    | cons op ops ih =>
      intro b
      simp only [List.map_cons, Dealer.replies, Dealer.step_with, ih]
      cases (Dealer.step w b op).2 <;> rfl
  exact h ops Dealer.init

/-- A broker that discloses publishers: session 2 gets the EVENT of session 1, whoever that is. -/
example : let ops : List Broker.Op := [.disclose true, .add ⟨1, str "r", str "alice", str "user", str "ticket", false, none, none⟩,
      .add ⟨2, str "r", str "bob", str "user", str "ticket", false, none, none⟩, .receive 2 (.subscribe 1 none (str "t")), .publish 1 1 none (str "t") none none [] []]
    let c : People := ⟨fun x => x ++ str "2", fun _ => str "guest", fun _ => str "q", fun _ => [], fun _ => none, fun _ => none⟩
    let events (l : List (Res Broker.Out)) : List (List Nat × List Str) := l.filterMap fun
      | .ok (.pub ⟨some (.event _ _ (some d) _ _), rs, _⟩) => some (rs, d.filterMap fun | (_, .str t) => some t | _ => none)
      | _ => none
    events (Broker.replies (fun _ _ => false) Broker.init ops) = [([2], [str "alice", str "user", str "t"])] ∧
    events (Broker.replies (fun _ _ => false) Broker.init (ops.map c.brokerOp)) = [([2], [str "alice2", str "guest", str "t"])] := by
  decide +kernel

namespace System

private def bEventW (e : Broker.Event) : Broker.Event := ⟨c.brokerOp e.op, e.res.map c.brokerOut⟩
private def dEventW (e : Dealer.Event) : Dealer.Event := ⟨c.dealerOp e.op, e.res.map c.dealerOut⟩

/-- The system with the other people. -/
private def Sys.with (x : Sys) : Sys :=
  { x with
    broker := x.broker.with c
    dealer := x.dealer.with c
    down := fun s => (x.down s).map c.msg
    bh := x.bh.map (bEventW c)
    dh := x.dh.map (dEventW c) }

private def Log.with (l : Log) : Log := ⟨l.sys.with c, fun s => (l.got s).map c.msg⟩

private theorem upd_with (m : Nat → List Msg) (s : Nat) (l : List Msg) :
    upd (fun s => (m s).map c.msg) s (l.map c.msg) = fun x => (upd m s l x).map c.msg := by
  funext x
  simp only [upd]
  split <;> rfl

private theorem recv_with (m : Msg) (s : Session.State) : ((Session.recv (c.msg m)).run s).1 = ((Session.recv m).run s).1 := by
  cases m with
  | event i n d a k => simp only [People.msg, Session.recv, Session.Prog.run]; cases s .subscriptions i <;> rfl
  | invocation i g d a k b => simp only [People.msg, Session.recv, Session.Prog.run]; cases s .registrations g <;> rfl
  | _ => rfl

private theorem answer_with (b : Broker.State) (op : Broker.Op) :
    (∀ m s, (Broker.step w b op).2 = .ok (.msg m s) → c.msg m = m) ∧
    (∀ p x, (Broker.step w b op).2 = .ok (.pub p) → p.ack = some x → c.msg x.1 = x.1) := by
  cases op with
  | add d => simp only [Broker.step]; cases (Broker.addSession b d).2 <;> exact ⟨fun _ _ h => (by cases h), fun _ _ h => (by cases h)⟩
  | remove s o => simp only [Broker.step]; cases (Broker.removeSession b s o).2 <;> exact ⟨fun _ _ h => (by cases h), fun _ _ h => (by cases h)⟩
  | has t => exact ⟨fun _ _ h => (by cases h), fun _ _ h => (by cases h)⟩
  | disclose on => exact ⟨fun _ _ h => (by cases h), fun _ _ h => (by cases h)⟩
  | receive s m =>
    refine ⟨?_, ?_⟩
    · intro m' s' h
      cases m with
      | subscribe q o t =>
        simp only [Broker.step, Broker.receive, Broker.subscribe] at h
        split at h
        · cases h
        · split at h <;> (cases h; rfl)
      | unsubscribe q i =>
        simp only [Broker.step, Broker.receive, Broker.unsubscribe] at h
        split at h
        · cases h
        · split at h
          · cases h
          · cases h; rfl
      | _ => cases h
    · intro p x h
      simp only [Broker.step] at h
      cases hx : (Broker.receive b s m).2 <;> rw [hx] at h <;> cases h
  | publish s q o t a k wo so =>
    refine ⟨?_, ?_⟩
    · intro m' s' h
      simp only [Broker.step] at h
      cases hx : (Broker.publish w b s q o t a k wo so).2 <;> rw [hx] at h <;> cases h
    · intro p x h ha
      simp only [Broker.step] at h
      cases hx : (Broker.publish w b s q o t a k wo so).2 with
      | ok p' =>
        rw [hx] at h
        cases h
        simp only [Broker.publish] at hx
        revert hx
        split
        · intro hx; cases hx
        · cases o.flag (str "acknowledge")
          · split
            · intro hx; cases hx; cases ha
            · split
              · intro hx; cases hx; cases ha
              · split <;> intro hx <;> cases hx
                cases ha
          · split
            · intro hx; cases hx; cases ha; rfl
            · split
              · intro hx; cases hx; cases ha; rfl
              · split <;> intro hx <;> cases hx
                cases ha; rfl
      | err => rw [hx] at h; cases h
      | panic => rw [hx] at h; cases h

private theorem brokerOut_with (b : Broker.State) (op : Broker.Op) :
    brokerOut ((Broker.step w b op).2.map c.brokerOut) = (brokerOut (Broker.step w b op).2).map fun p => (p.1, c.msg p.2) := by
  obtain ⟨h1, h2⟩ := answer_with (w := w) c b op
  cases hx : (Broker.step w b op).2 with
  | err => rfl
  | panic => rfl
  | ok o =>
    cases o with
    | unit => rfl
    | bool b => rfl
    | msg m s => simp [brokerOut, People.brokerOut, h1 m s hx]
    | pub p =>
      have h2' := fun x => h2 p x hx
      obtain ⟨e, rs, a⟩ := p
      cases a with
      | none => cases e <;> simp [brokerOut, People.brokerOut]
      | some x => cases e <;> simp [brokerOut, People.brokerOut, h2' x rfl]

private theorem dealerOut_with (x : Res Dealer.Out) :
    dealerOut (x.map c.dealerOut) = (dealerOut x).map fun p => (p.1, c.msg p.2) := by
  cases x with
  | err => rfl
  | panic => rfl
  | ok o => cases o <;> rfl

private theorem onBroker_with (x : Sys) (op : Broker.Op) : (x.with c).onBroker w (c.brokerOp op) = (x.onBroker w op).with c := by
  have h : Broker.step w (x.with c).broker (c.brokerOp op) = _ := Broker.step_with c x.broker op
  simp only [Sys.onBroker, h]
  rfl

private theorem onDealer_with (x : Sys) (op : Dealer.Op) : (x.with c).onDealer w (c.dealerOp op) = (x.onDealer w op).map (Sys.with c) := by
  have h : Dealer.step w (x.with c).dealer (c.dealerOp op) = _ := Dealer.step_with c x.dealer op
  simp only [Sys.onDealer, h]
  cases e : (Dealer.step w x.dealer op).2 <;> rfl

private theorem post_with (x : Sys) (out : List (Nat × Msg)) :
    (x.with c).post (out.map fun p => (p.1, c.msg p.2)) = (x.post out).with c := by
  have h : ∀ s, messagesFor s (out.map fun p => (p.1, c.msg p.2)) = (messagesFor s out).map c.msg := by
    intro s
    unfold messagesFor
    rw [List.filter_map, List.map_map, List.map_map]
    rfl
  have : (fun s => (x.with c).down s ++ messagesFor s (out.map fun p => (p.1, c.msg p.2))) = fun s => (x.down s ++ messagesFor s out).map c.msg := by
    funext s
    rw [h, List.map_append]
    rfl
  simp only [Sys.post, this]
  rfl

private theorem handle_with (x : Sys) (s : Nat) (m : Msg) (wo : List Str) (so : List Nat) (rnd : Nat) :
    (x.with c).handle w s m wo so rnd = (x.handle w s m wo so rnd).map (Sys.with c) := by
  have hb : ∀ op : Broker.Op, ((x.with c).onBroker w (c.brokerOp op)).post (brokerOut (Broker.step w (x.with c).broker (c.brokerOp op)).2) =
      ((x.onBroker w op).post (brokerOut (Broker.step w x.broker op).2)).with c := by
    intro op
    have h : Broker.step w (x.with c).broker (c.brokerOp op) = _ := Broker.step_with c x.broker op
    rw [h, onBroker_with, brokerOut_with, post_with]
  have hd : ∀ op : Dealer.Op, (((x.with c).onDealer w (c.dealerOp op)).map fun y => y.post (dealerOut (Dealer.step w (x.with c).dealer (c.dealerOp op)).2)) =
      ((x.onDealer w op).map fun y => y.post (dealerOut (Dealer.step w x.dealer op).2)).map (Sys.with c) := by
    intro op
    have h : Dealer.step w (x.with c).dealer (c.dealerOp op) = _ := Dealer.step_with c x.dealer op
    rw [h, onDealer_with, dealerOut_with, Option.map_map, Option.map_map]
    cases x.onDealer w op with
    | none => rfl
    | some y => exact congrArg some (post_with c y _)
  cases m with
  | publish q o t a k => exact congrArg some (hb (.publish s q o t a k wo so))
  | subscribe q o t => exact congrArg some (hb (.receive s (.subscribe q o t)))
  | unsubscribe q i => exact congrArg some (hb (.receive s (.unsubscribe q i)))
  | call q o p a k bin => exact hd (.receive s (.call q o p a k bin) wo rnd)
  | yield q o a k bin => exact hd (.receive s (.yield q o a k bin) wo rnd)
  | register q o p => exact hd (.receive s (.register q o p) wo rnd)
  | unregister q i => exact hd (.receive s (.unregister q i) wo rnd)
  | error t q d u a k => exact hd (.receive s (.error t q d u a k) wo rnd)
  | _ => rfl

private def actionW : Action → Action
  | .join d => .join (c.session d)
  | a => a

private theorem act_with (x : Sys) (a : Action) : (x.with c).act w (actionW c a) = (x.act w a).map (Sys.with c) := by
  cases a with
  | join d =>
    simp only [actionW, Sys.act]
    show (if d.id ∈ x.joined then _ else _) = _
    split
    · rfl
    · exact (congrArg (fun y => Sys.onDealer w y (.add (c.session d))) (onBroker_with c ({ x with joined := d.id :: x.joined } : Sys) (.add d))).trans
        (onDealer_with c _ (.add d))
  | leave s o o' =>
    exact (congrArg (fun y => Sys.onDealer w y (.remove s o')) (onBroker_with c x (.remove s o))).trans (onDealer_with c _ (.remove s o'))
  | disclose p d =>
    exact (congrArg (fun y => Sys.onDealer w y (.disclose d)) (onBroker_with c x (.disclose p))).trans (onDealer_with c _ (.disclose d))
  | send s data m =>
    simp only [actionW, Sys.act]
    rw [show (x.with c).client = x.client from rfl]
    rcases h : (Session.send (.ok data) m).run (x.client s) with ⟨d, t⟩
    cases t with
    | err => rfl
    | panic => rfl
    | ok b =>
      simp only
      show (if s ∈ x.joined then _ else _) = _
      split <;> rfl
  | route s wo so rnd =>
    simp only [actionW, Sys.act]
    rw [show (x.with c).up = x.up from rfl]
    cases h : x.up s with
    | nil => rfl
    | cons m rest => exact handle_with c ({ x with up := upd x.up s rest } : Sys) s m wo so rnd
  | deliver s =>
    simp only [actionW, Sys.act]
    rw [show (x.with c).down s = (x.down s).map c.msg from rfl]
    cases h : x.down s with
    | nil => rfl
    | cons m rest =>
      simp only [List.map_cons, Option.map_some]
      rw [show (x.with c).client = x.client from rfl, recv_with]
      simp only [Sys.with, upd_with]

private theorem move_with (F : Nat → Bool) (l : Log) (v : Move) : (l.with c).move w F (c.move v) = (l.move w F v).map (Log.with c) := by
  have hl : ∀ a : Action, (l.with c).act w (actionW c a) = (l.act w a).map (Log.with c) := by
    intro a
    have h := act_with (w := w) c l.sys a
    simp only [Log.act]
    show (Sys.act w (l.sys.with c) _).map _ = _
    rw [h, Option.map_map, Option.map_map]
    cases l.sys.act w a with
    | none => rfl
    | some y =>
      refine congrArg some ?_
      cases a with
      | deliver s =>
        show Log.mk _ (upd (fun s => (l.got s).map c.msg) s ((l.got s).map c.msg ++ ((l.sys.down s).map c.msg).take 1)) = _
        rw [← List.map_take, ← List.map_append, upd_with]
        rfl
      | _ => rfl
  cases v with
  | inject s m =>
    simp only [People.move, Log.move]
    rw [show (l.with c).sys.joined = l.sys.joined from rfl]
    split <;> rfl
  | act a =>
    cases a with
    | send s data m =>
      simp only [People.move, Log.move]
      split
      · rfl
      · exact hl (.send s data m)
    | join d => exact hl (.join d)
    | leave s o o' => exact hl (.leave s o o')
    | disclose p c => exact hl (.disclose p c)
    | route s wo so rnd => exact hl (.route s wo so rnd)
    | deliver s => exact hl (.deliver s)

private theorem moves_with (F : Nat → Bool) (vs : List Move) (l : Log) :
    (l.with c).moves w F (vs.map c.move) = (l.moves w F vs).map (Log.with c) := by
  induction vs generalizing l with
  | nil => rfl
  | cons v vs ih =>
    simp only [List.map_cons, Log.moves, move_with]
    cases l.move w F v with
    | none => rfl
    | some l' => exact ih l'

/-- **C163.** Who the clients are makes no difference to a router: if they were other people, with other auth IDs and roles, of other realms, logged
in in other ways, the same would be possible, every client would have sent the same messages and got the same messages (with the new auth IDs and
roles where publishers and callers are disclosed), and its `Session` would be in the same state. -/
theorem C163_system (F : Nat → Bool) (vs : List Move) :
    match Log.new.moves w F vs, Log.new.moves w F (vs.map c.move) with
    | none, none => True
    | some l, some l' => ∀ s, l'.inbox s = (l.inbox s).map c.msg ∧ l'.outbox s = l.outbox s ∧ l'.sys.client s = l.sys.client s
    | _, _ => False := by
  have h := moves_with (w := w) c F vs Log.new
  rw [show Log.with c Log.new = Log.new from rfl] at h
  rw [h]
  cases Log.new.moves w F vs with
  | none => trivial
  | some l => exact fun s => ⟨(List.map_append ..).symm, rfl, rfl⟩

/-- Session 7 offers a procedure and session 1 calls it.  The callee is told that it was called by the person who is now session 1. -/
example : let vs : List Move :=
      [.act (.disclose true true), .act (.join ⟨1, str "r", str "alice", str "user", str "ticket", false, none, none⟩),
       .act (.join ⟨7, str "r", str "bob", str "admin", str "wampcra", false, none, none⟩),
       .inject 7 (.register 1 none (str "p")), .act (.route 7 [] [] 0), .inject 1 (.call 1 none (str "p") none none Bin.none), .act (.route 1 [] [] 0)]
    let c : People := ⟨fun x => x ++ str "2", fun _ => str "guest", fun _ => str "q", fun _ => [], fun _ => none, fun _ => none⟩
    let text (v : Option Val) : Option Str := match v with | some (.str t) => some t | _ => none
    let callers (l : Log) : List (Option Str × Option Str) := (l.inbox 7).filterMap fun
      | .invocation _ _ (some d) _ _ _ => some (text (AMap.get d (str "caller_authid")), text (AMap.get d (str "caller_authrole")))
      | _ => none
    (Log.new.moves (fun _ _ => false) (fun _ => true) vs).map callers = some [(some (str "alice"), some (str "user"))] ∧
    (Log.new.moves (fun _ _ => false) (fun _ => true) (vs.map c.move)).map callers = some [(some (str "alice2"), some (str "guest"))] := by
  decide +kernel

end System
end Wamp
