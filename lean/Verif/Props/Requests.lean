import Verif.Spec.Requests
import Verif.Props.Dealer
/-!
# C162: request IDs are only names
-/
namespace Wamp.Requests
variable {g : Nat → Nat}

/-- A table indexed by request IDs. -/
private noncomputable def tab (g : Nat → Nat) (m : FMap Nat Nat) : FMap Nat Nat := fun t =>
  open Classical in if h : ∃ u, g u = t then m h.choose else none

private theorem tab_new (hg : ∀ a b, g a = g b → a = b) (m : FMap Nat Nat) (t : Nat) : tab g m (g t) = m t := by
  have h : ∃ u, g u = g t := ⟨t, rfl⟩
  simp only [tab, dif_pos h]
  rw [hg _ _ h.choose_spec]

private theorem tab_not (m : FMap Nat Nat) (t : Nat) (h : ¬∃ u, g u = t) : tab g m t = none := by
  simp only [tab, dif_neg h]

private theorem inj (hg : ∀ a b, g a = g b → a = b) {a b : Nat} : g a = g b ↔ a = b := ⟨hg a b, fun h => h ▸ rfl⟩

private theorem tab_set (hg : ∀ a b, g a = g b → a = b) (m : FMap Nat Nat) (t v : Nat) : FMap.set (tab g m) (g t) v = tab g (FMap.set m t v) := by
  funext x
  by_cases h : ∃ u, g u = x
  · obtain ⟨u, rfl⟩ := h
    simp only [FMap.set, tab_new hg, inj hg]
  · rw [tab_not _ _ h]
    simp only [FMap.set, tab_not _ _ h]
    rw [if_neg]
    intro e; exact h ⟨t, e.symm⟩

private theorem tab_del (hg : ∀ a b, g a = g b → a = b) (m : FMap Nat Nat) (t : Nat) : FMap.del (tab g m) (g t) = tab g (FMap.del m t) := by
  funext x
  by_cases h : ∃ u, g u = x
  · obtain ⟨u, rfl⟩ := h
    simp only [FMap.del, tab_new hg, inj hg]
  · rw [tab_not _ _ h]
    simp only [FMap.del, tab_not _ _ h, ite_self]

private theorem tab_empty : tab g FMap.empty = FMap.empty := by
  funext x
  simp only [tab, FMap.empty]
  split <;> rfl

end Wamp.Requests

namespace Wamp.Session
open Requests
variable {g : Nat → Nat}

/-- Tables of requests. -/
private def Tab.ofRequests : Tab → Bool
  | .registrations | .subscriptions | .invocation => false
  | _ => true

/-- The session with the new request IDs. -/
private noncomputable def State.renum (g : Nat → Nat) (s : State) : State := fun t => if t.ofRequests then tab g (s t) else s t

private theorem get_req (hg : ∀ a b, g a = g b → a = b) (s : State) {t : Tab} (ht : t.ofRequests = true) (k : Nat) : s.renum g t (g k) = s t k := by
  simp only [State.renum, if_pos ht, tab_new hg]

private theorem get_other (s : State) {t : Tab} (ht : t.ofRequests = false) (k : Nat) : s.renum g t k = s t k := by
  simp only [State.renum, ht, Bool.false_eq_true, if_false]

private theorem put_req (s : State) {t : Tab} (ht : t.ofRequests = true) (m : FMap Nat Nat) : (s.renum g).put t (tab g m) = (s.put t m).renum g := by
  funext t'
  simp only [State.put, State.renum]
  by_cases h : t' = t
  · subst h; simp only [if_true, if_pos ht]
  · simp only [if_neg h]

private theorem put_other (s : State) {t : Tab} (ht : t.ofRequests = false) (m : FMap Nat Nat) : (s.renum g).put t m = (s.put t m).renum g := by
  funext t'
  simp only [State.put, State.renum]
  by_cases h : t' = t
  · subst h; simp only [if_true, ht, Bool.false_eq_true, if_false]
  · simp only [if_neg h]

private theorem set_req (hg : ∀ a b, g a = g b → a = b) (s : State) {t : Tab} (ht : t.ofRequests = true) (k v : Nat) :
    (s.renum g).put t (FMap.set (s.renum g t) (g k) v) = (s.put t (FMap.set (s t) k v)).renum g := by
  rw [← put_req s ht, ← tab_set hg]
  simp only [State.renum, if_pos ht]

private theorem del_req (hg : ∀ a b, g a = g b → a = b) (s : State) {t : Tab} (ht : t.ofRequests = true) (k : Nat) :
    (s.renum g).put t (FMap.del (s.renum g t) (g k)) = (s.put t (FMap.del (s t) k)).renum g := by
  rw [← put_req s ht, ← tab_del hg]
  simp only [State.renum, if_pos ht]

private theorem set_other (s : State) {t : Tab} (ht : t.ofRequests = false) (k v : Nat) :
    (s.renum g).put t (FMap.set (s.renum g t) k v) = (s.put t (FMap.set (s t) k v)).renum g := by
  rw [← put_other s ht]
  simp only [State.renum, ht, Bool.false_eq_true, if_false]

private theorem del_other (s : State) {t : Tab} (ht : t.ofRequests = false) (k : Nat) :
    (s.renum g).put t (FMap.del (s.renum g t) k) = (s.put t (FMap.del (s t) k)).renum g := by
  rw [← put_other s ht]
  simp only [State.renum, ht, Bool.false_eq_true, if_false]

private theorem renum_init : init.renum g = init := by
  funext t
  simp only [State.renum, init, tab_empty, ite_self]

private theorem send_renum (hg : ∀ a b, g a = g b → a = b) (data : Res Str) (m : Msg) (s : State) :
    (send data (msg g m)).run (s.renum g) = (((send data m).run s).1.renum g, ((send data m).run s).2) := by
  cases data with
  | err => rfl
  | panic => rfl
  | ok b =>
    cases m with
    | call q o p a k bin => simp only [msg, send, Prog.run, set_req hg s (t := .call) rfl]
    | yield q o a k bin =>
      simp only [msg, send]
      split
      · rfl
      · simp only [Prog.run, del_other s (t := .invocation) rfl]
    | register q o p => simp only [msg, send, Prog.run, set_req hg s (t := .register) rfl]
    | unregister q i => simp only [msg, send, Prog.run, set_req hg s (t := .unregister) rfl]
    | publish q o t a k =>
      simp only [msg, send]
      split
      · simp only [Prog.run, set_req hg s (t := .publish) rfl]
      · rfl
    | subscribe q o t => simp only [msg, send, Prog.run, set_req hg s (t := .subscribe) rfl]
    | unsubscribe q i =>
      simp only [msg, send, Prog.run, get_other s (t := .subscriptions) rfl]
      cases s .subscriptions i with
      | none => rfl
      | some v => simp only [Prog.run, set_req hg s (t := .unsubscribe) rfl]
    | error t q d u a k =>
      simp only [msg, send]
      by_cases ht : t = 68
      · subst ht
        simp only [ne_eq, not_true_eq_false, if_false, if_true, Prog.run, del_other s (t := .invocation) rfl]
      · simp only [ne_eq, ht, not_false_eq_true, if_true]
        rfl
    | _ => rfl

private theorem recv_renum (hg : ∀ a b, g a = g b → a = b) (m : Msg) (s : State) :
    (recv (msg g m)).run (s.renum g) = (((recv m).run s).1.renum g, ((recv m).run s).2.map (msg g)) := by
  cases m with
  | result q d a k bin =>
    simp only [msg, recv, Prog.run, get_req hg s (t := .call) rfl]
    cases s .call q with
    | none => rfl
    | some v =>
      simp only
      split
      · rfl
      · simp only [Prog.run, del_req hg s (t := .call) rfl]; rfl
  | registered q i =>
    simp only [msg, recv, Prog.run, get_req hg s (t := .register) rfl, del_req hg s (t := .register) rfl]
    cases s .register q with
    | none => rfl
    | some v => simp only [Prog.run, set_other _ (t := .registrations) rfl]; rfl
  | unregistered q =>
    simp only [msg, recv, Prog.run, get_req hg s (t := .unregister) rfl]
    cases s .unregister q with
    | none => rfl
    | some i =>
      simp only [Prog.run, get_other s (t := .registrations) rfl, del_other s (t := .registrations) rfl]
      cases s .registrations i <;> rfl
  | invocation q i d a k bin =>
    simp only [msg, recv, Prog.run, get_other s (t := .registrations) rfl]
    cases s .registrations i with
    | none => rfl
    | some v => simp only [Prog.run, set_other _ (t := .invocation) rfl]; rfl
  | published q n =>
    simp only [msg, recv, Prog.run, get_req hg s (t := .publish) rfl, del_req hg s (t := .publish) rfl]
    cases s .publish q <;> rfl
  | subscribed q i =>
    simp only [msg, recv, Prog.run, get_req hg s (t := .subscribe) rfl]
    cases s .subscribe q with
    | none => rfl
    | some v => simp only [Prog.run, set_other _ (t := .subscriptions) rfl]; rfl
  | unsubscribed q =>
    simp only [msg, recv, Prog.run, get_req hg s (t := .unsubscribe) rfl]
    cases s .unsubscribe q with
    | none => rfl
    | some i =>
      simp only [Prog.run, get_other s (t := .subscriptions) rfl, del_other s (t := .subscriptions) rfl]
      cases s .subscriptions i <;> rfl
  | event i n d a k =>
    simp only [msg, recv, Prog.run, get_other s (t := .subscriptions) rfl]
    cases s .subscriptions i <;> rfl
  | error t q d u a k =>
    by_cases h68 : t = 68
    · subst h68; rfl
    · simp only [msg, recv, if_neg h68]
      cases ht : errorTab t with
      | none => rfl
      | some tb =>
        have hr : tb.ofRequests = true := by
          unfold errorTab at ht
          split at ht <;> cases ht <;> rfl
        simp only [Prog.run, get_req hg s hr, del_req hg s hr]
        cases s tb q with
        | none => rfl
        | some v =>
          simp only [Prog.run, Res.map_ok, msg, if_neg h68]
  | _ => rfl

private theorem go_run {α : Type} (p : Prog (Res α)) (s : State) :
    (Op.prog.go p).run s = ((p.run s).1, match (p.run s).2 with | .ok _ => true | _ => false) := by
  induction p generalizing s with
  | ret a => cases a <;> rfl
  | load t k c ih => simp only [Op.prog.go, Prog.run, ih]
  | store t k v c ih => simp only [Op.prog.go, Prog.run, ih]
  | delete t k c ih => simp only [Op.prog.go, Prog.run, ih]
  | loadAndDelete t k c ih => simp only [Op.prog.go, Prog.run, ih]

private theorem op_renum (hg : ∀ a b, g a = g b → a = b) (op : Op) (s : State) :
    (sessionOp g op).prog.run (s.renum g) = ((op.prog.run s).1.renum g, (op.prog.run s).2) := by
  cases op with
  | send d m => simp only [sessionOp, Op.prog, go_run, send_renum hg]
  | recv m =>
    simp only [sessionOp, Op.prog, go_run, recv_renum hg]
    cases ((recv m).run s).2 <;> rfl

/-- **C162.** Request IDs are only names to a client's session: it sends and accepts the same messages if the requests have other IDs. -/
theorem C162_session (hg : ∀ a b, g a = g b → a = b) (ops : List Op) : accepted init (ops.map (sessionOp g)) = accepted init ops := by
  have h : ∀ s : State, accepted (s.renum g) (ops.map (sessionOp g)) = accepted s ops := by
    induction ops with
    | nil => exact fun _ => rfl
    | cons op ops ih =>
      intro s
      simp only [List.map_cons, accepted, op_renum hg, ih]
  have := h init
  rwa [renum_init] at this

/-- A REGISTERED is accepted for the request that was sent, whatever its ID, and for no other. -/
example : let ops : List Op := [.send (.ok []) (.register 1 none (str "p")), .recv (.registered 2 9), .recv (.registered 1 9), .recv (.registered 1 9)]
    accepted init ops = [true, false, true, false] ∧ accepted init (ops.map (sessionOp fun q => q + 5000)) = [true, false, true, false] := by
  decide +kernel

end Wamp.Session

namespace Wamp.Broker
open Requests
variable {w : Str → Str → Bool} {f : Nat → Nat → Nat}

private theorem step_renum (b : State) (op : Op) : step w b (brokerOp f op) = ((step w b op).1, (step w b op).2.map (brokerOut f)) := by
  cases op with
  | add d => simp only [brokerOp, step]; cases (addSession b d).2 <;> rfl
  | remove s o => simp only [brokerOp, step]; cases (removeSession b s o).2 <;> rfl
  | has t => rfl
  | disclose on => rfl
  | receive s m =>
    cases m with
    | subscribe q o t =>
      simp only [brokerOp, msg, step, receive, subscribe]
      cases b.bySession s with
      | none => rfl
      | some m => cases b.byTopic t <;> rfl
    | unsubscribe q i =>
      simp only [brokerOp, msg, step, receive, unsubscribe]
      cases b.bySession s with
      | none => rfl
      | some m => cases hp : AMap.get m i <;> simp only [hp] <;> rfl
    | _ => rfl
  | publish s q o t a k wo so =>
    simp only [brokerOp, step, publish]
    cases b.bySession s with
    | none => rfl
    | some m =>
      simp only
      cases lookup w wo b t with
      | none => cases o.flag (str "acknowledge") <;> rfl
      | some p =>
        simp only
        split
        · cases o.flag (str "acknowledge") <;> rfl
        · cases eventDetails b s t with
          | ok d => cases o.flag (str "acknowledge") <;> rfl
          | err => rfl
          | panic => rfl

/-- **C162.** Request IDs are only names to a broker: with other IDs it returns the same results, with the new IDs in them.  (Even if
different requests get the same ID.) -/
theorem C162_broker (ops : List Op) : replies w init (ops.map (brokerOp f)) = (replies w init ops).map (Res.map (brokerOut f)) := by
  have h : ∀ b : State, replies w b (ops.map (brokerOp f)) = (replies w b ops).map (Res.map (brokerOut f)) := by
    induction ops with
    | nil => exact fun _ => rfl
    | cons op ops ih =>
      intro b
      simp only [List.map_cons, replies, step_renum, ih]
  exact h init

/-- SUBSCRIBED and PUBLISHED carry the new IDs. -/
example : let ops : List Op := [.add ⟨1, [], [], [], [], false, none, none⟩, .receive 1 (.subscribe 1 none (str "t")),
      .publish 1 2 (some [(str "acknowledge", .bool true)]) (str "t") none none [] []]
    let ids (l : List (Res Out)) : List Nat := l.filterMap fun | .ok (.msg (.subscribed q _) _) => some q | .ok (.pub ⟨_, _, some (.published q _, _)⟩) => some q | _ => none
    ids (replies (fun _ _ => false) init ops) = [1, 2] ∧ ids (replies (fun _ _ => false) init (ops.map (brokerOp fun s q => q + 100 * s))) = [101, 102] := by
  decide +kernel

end Wamp.Broker

namespace Wamp.Dealer
open Requests
variable {w : Str → Str → Bool} {f : Nat → Nat → Nat}

private def Pending.renum (f : Nat → Nat → Nat) (x : Pending) : Pending := { x with requestID := f x.callerID x.requestID }

/-- The invocations by caller and request. -/
private noncomputable def calls (f : Nat → Nat → Nat) (m : FMap (Nat × Nat) Nat) : FMap (Nat × Nat) Nat := fun x => tab (f x.1) (fun q => m (x.1, q)) x.2

private theorem calls_set (hf : Distinct f) (m : FMap (Nat × Nat) Nat) (s q i : Nat) : FMap.set (calls f m) (s, f s q) i = calls f (FMap.set m (s, q) i) := by
  funext x
  obtain ⟨s', x⟩ := x
  by_cases hs : s' = s
  · subst hs
    have := congrFun (tab_set (hf s') (fun q => m (s', q)) q i) x
    have e : (fun q' => FMap.set m (s', q) i (s', q')) = FMap.set (fun q => m (s', q)) q i := by
      funext q'; simp only [FMap.set, Prod.mk.injEq, true_and]
    simp only [calls, e, ← this]
    simp only [FMap.set, Prod.mk.injEq, true_and]
    rfl
  · have e : (fun q' => FMap.set m (s, q) i (s', q')) = fun q' => m (s', q') := by
      funext q'; simp only [FMap.set, Prod.mk.injEq, hs, false_and, if_false]
    simp only [calls, e]
    simp only [FMap.set, Prod.mk.injEq, hs, false_and, if_false]
    rfl

/-- The dealer with the new request IDs. -/
private noncomputable def State.renum (f : Nat → Nat → Nat) (b : State) : State :=
  { b with
    pending := b.pending.map fun x => (x.1, x.2.renum f)
    invByCall := calls f b.invByCall }

private theorem get_renum (m : AMap Nat Pending) (i : Nat) : AMap.get (m.map fun x => (x.1, x.2.renum f)) i = (AMap.get m i).map (Pending.renum f) := by
  induction m with
  | nil => rfl
  | cons x m ih =>
    simp only [List.map_cons, AMap.get]
    split
    · rfl
    · exact ih

private theorem del_renum (m : AMap Nat Pending) (i : Nat) : AMap.del (m.map fun x => (x.1, x.2.renum f)) i = (AMap.del m i).map fun x => (x.1, x.2.renum f) := by
  induction m with
  | nil => rfl
  | cons x m ih =>
    simp only [List.map_cons, AMap.del, ih]
    split <;> rfl

private theorem set_renum (m : AMap Nat Pending) (i : Nat) (x : Pending) :
    AMap.set (m.map fun x => (x.1, x.2.renum f)) i (x.renum f) = (AMap.set m i x).map fun x => (x.1, x.2.renum f) := by
  induction m with
  | nil => rfl
  | cons x m ih =>
    simp only [List.map_cons, AMap.set, ih]
    split <;> rfl

private theorem removeStep_renum (s : Nat) (b : State) (a : Nat) : removeStep s (b.renum f) a = (removeStep s b a).map (State.renum f) := by
  unfold removeStep
  show (match b.byProc (b.heap a).procedure with | none => _ | some p => _) = _
  cases b.byProc (b.heap a).procedure with
  | none => rfl
  | some p =>
    simp only
    show Res.bind (surgery s (b.heap p).callees.length 0 (b.heap p).callees (b.heap p).callees.length) _ = _
    cases surgery s (b.heap p).callees.length 0 (b.heap p).callees (b.heap p).callees.length <;> rfl

private theorem removeLoop_renum (s : Nat) (l : List Nat) (b : State) : removeLoop s (b.renum f) l = (removeLoop s b l).map (State.renum f) := by
  induction l generalizing b with
  | nil => rfl
  | cons a l ih =>
    simp only [removeLoop, removeStep_renum]
    cases removeStep s b a with
    | ok b' => exact ih b'
    | err => rfl
    | panic => rfl

private theorem removeSession_renum (b : State) (s : Nat) (o : List Nat) :
    removeSession (b.renum f) s o = ((removeSession b s o).1.renum f, (removeSession b s o).2) := by
  unfold removeSession
  show (match b.sessions s with | none => _ | some m => _) = _
  cases b.sessions s with
  | none => rfl
  | some d =>
    simp only [removeLoop_renum]
    show (match (removeLoop s b ((arrange o ((b.bySession s).getD []).keys).filterMap ((b.bySession s).getD []).get)).map (State.renum f) with
      | .ok b' => _ | .err => _ | .panic => _) = _
    cases removeLoop s b ((arrange o ((b.bySession s).getD []).keys).filterMap ((b.bySession s).getD []).get) <;> rfl

private theorem yield_renum (b : State) (q : Nat) (o : GoMap) (a : GoSlice) (k : GoMap) (bin : Bin) :
    yield (b.renum f) q o a k bin = ((yield b q o a k bin).1.renum f, (yield b q o a k bin).2.map fun x => (msg (f x.2) x.1, x.2)) := by
  unfold yield
  have h : (b.renum f).pending.get q = (b.pending.get q).map (Pending.renum f) := get_renum ..
  rw [h]
  cases b.pending.get q with
  | none => rfl
  | some p =>
    have hd : (b.renum f).pending.del q = (b.pending.del q).map fun x => (x.1, x.2.renum f) := del_renum ..
    simp only [Option.map_some, hd]
    show (match b.sessions p.callerID with | none => _ | some c => _) = _
    have e : (p.renum f).receiveProgress = p.receiveProgress := rfl
    rw [e]
    cases b.sessions p.callerID with
    | none => cases (p.receiveProgress && o.flag optProgress) <;> rfl
    | some c => cases (p.receiveProgress && o.flag optProgress) <;> simp only <;> cases (bin.binary && c.static) <;> rfl

private theorem error_renum (b : State) (t q : Nat) (d : GoMap) (u : Str) (a : GoSlice) (k : GoMap) :
    error (b.renum f) t q d u a k = ((error b t q d u a k).1.renum f, (error b t q d u a k).2.map fun x => (msg (f x.2) x.1, x.2)) := by
  unfold error
  split
  · rfl
  · have h : (b.renum f).pending.get q = (b.pending.get q).map (Pending.renum f) := get_renum ..
    have hd : (b.renum f).pending.del q = (b.pending.del q).map fun x => (x.1, x.2.renum f) := del_renum ..
    rw [h]
    cases b.pending.get q with
    | none => rfl
    | some p => simp only [Option.map_some, hd]; rfl

private theorem register_renum (b : State) (s q : Nat) (o : GoMap) (t : Str) :
    register (b.renum f) s (f s q) o t = ((register b s q o t).1.renum f, (register b s q o t).2.map fun x => (msg (f x.2) x.1, x.2)) := by
  unfold register
  show (match b.bySession s with | none => _ | some m => _) = _
  cases b.bySession s with
  | none => rfl
  | some m =>
    simp only
    show (match b.byProc t with | some p => _ | none => _) = _
    cases b.byProc t with
    | none => rfl
    | some p =>
      simp only
      show (if (b.heap p).policy = [] ∨ (b.heap p).policy = invokeSingle ∨ (b.heap p).policy ≠ o.text optInvoke then _ else _) = _
      split <;> rfl

private theorem unregister_renum (b : State) (s q i : Nat) :
    unregister (b.renum f) s (f s q) i = ((unregister b s q i).1.renum f, (unregister b s q i).2.map fun x => (msg (f x.2) x.1, x.2)) := by
  unfold unregister
  show (match b.bySession s with | none => _ | some m => _) = _
  cases b.bySession s with
  | none => rfl
  | some m =>
    simp only
    split
    · rfl
    · cases AMap.get m i with
      | none => rfl
      | some p =>
        simp only
        show (if (List.filter (fun x => decide (x ≠ s)) (b.heap p).registrants).isEmpty = true then _ else _, _) = _
        cases (List.filter (fun x => decide (x ≠ s)) (b.heap p).registrants).isEmpty <;> rfl

private theorem call_renum (hf : Distinct f) (b : State) (s q : Nat) (o : GoMap) (t : Str) (a : GoSlice) (k : GoMap)
    (bin : Bin) (wo : List Str) (rnd : Nat) : call w (b.renum f) s (f s q) o t a k bin wo rnd =
      ((call w b s q o t a k bin wo rnd).1.renum f, (call w b s q o t a k bin wo rnd).2.map fun x => (msg (f x.2) x.1, x.2)) := by
  unfold call
  show (match lookup w wo b t with | none => _ | some a => _) = _
  cases lookup w wo b t with
  | none => rfl
  | some p =>
    simp only
    show (if (b.heap p).registrants.isEmpty = true then _ else match pick (b.heap p) rnd with | .err => _ | .panic => _ | .ok (callee, nc) => _) = _
    split
    · rfl
    · cases pick (b.heap p) rnd with
      | err => rfl
      | panic => rfl
      | ok x =>
        obtain ⟨callee, nc⟩ := x
        have e1 : (b.renum f).invByCall (s, f s q) = b.invByCall (s, q) := tab_new (hf s) (fun q => b.invByCall (s, q)) q
        have e2 : (b.renum f).sessions = b.sessions := rfl
        have e3 : (b.renum f).details = b.details := rfl
        have e4 : (b.renum f).idGen = b.idGen := rfl
        simp only [e1, e2, e3, e4]
        generalize o.flag optReceiveProgress = rp
        generalize o.flag optProgress = pr
        generalize b.invByCall (s, q) = old
        have h2 : ∀ inv, (b.renum f).pending.set inv ⟨f s q, s, callee, pr, rp⟩ = (b.pending.set inv ⟨q, s, callee, pr, rp⟩).map fun x => (x.1, x.2.renum f) :=
          fun inv => set_renum b.pending inv ⟨q, s, callee, pr, rp⟩
        have h3 : ∀ inv, (b.renum f).invByCall.set (s, f s q) inv = calls f (b.invByCall.set (s, q) inv) := fun inv => calls_set hf b.invByCall s q inv
        simp only [h2, h3]
        generalize (old.isNone || !pr) = fresh
        split
        · cases fresh <;> rfl
        · cases b.sessions callee with
          | none => cases fresh <;> rfl
          | some c =>
            simp only
            split <;> cases fresh <;> rfl

private theorem step_renum (hf : Distinct f) (b : State) (op : Op) :
    step w (b.renum f) (dealerOp f op) = ((step w b op).1.renum f, (step w b op).2.map (dealerOut f)) := by
  cases op with
  | add d =>
    simp only [dealerOp, step, addSession]
    rw [show (b.renum f).sessions d.id = b.sessions d.id from rfl]
    cases (b.sessions d.id).isSome <;> rfl
  | remove s o =>
    simp only [dealerOp, step, removeSession_renum]
    cases (removeSession b s o).2 <;> rfl
  | has t => rfl
  | disclose on => rfl
  | receive s m order rnd =>
    cases m with
    | call q o t a k bin =>
      simp only [dealerOp, msg, step, receive, call_renum hf b]
      cases (call w b s q o t a k bin order rnd).2 <;> rfl
    | yield q o a k bin =>
      simp only [dealerOp, msg, step, receive, yield_renum]
      cases (yield b q o a k bin).2 <;> rfl
    | register q o t =>
      simp only [dealerOp, msg, step, receive, register_renum b]
      cases (register b s q o t).2 <;> rfl
    | unregister q i =>
      simp only [dealerOp, msg, step, receive, unregister_renum b]
      cases (unregister b s q i).2 <;> rfl
    | error t q d u a k =>
      by_cases h : t = 68
      · subst h
        simp only [dealerOp, msg, step, receive, if_true, error_renum]
        cases (error b 68 q d u a k).2 <;> rfl
      · simp only [dealerOp, msg, step, receive, error, ne_eq, h, not_false_eq_true, if_true]
        rfl
    | _ => rfl

private theorem renum_init : init.renum f = init := by
  show State.mk _ _ _ _ _ _ _ _ (calls f FMap.empty) _ _ = _
  have : calls f FMap.empty = FMap.empty := by
    funext x
    exact congrFun (tab_empty (g := f x.1)) x.2
  rw [this]
  rfl

/-- **C162.** Request IDs are only names to a dealer: with other IDs, different ones for different requests of a session, it returns the
same results, with the new IDs in them. -/
theorem C162_dealer (hf : Distinct f) (ops : List Op) : replies w init (ops.map (dealerOp f)) = (replies w init ops).map (Res.map (dealerOut f)) := by
  have h : ∀ b : State, replies w (b.renum f) (ops.map (dealerOp f)) = (replies w b ops).map (Res.map (dealerOut f)) := by
    induction ops with
    | nil => exact fun _ => rfl
    | cons op ops ih =>
      intro b
      simp only [List.map_cons, replies, step_renum hf]
      cases (step w b op).2 with
      | ok o => exact congrArg _ (ih _)
      | err => exact congrArg _ (ih _)
      | panic => rfl
  have := h init
  rwa [renum_init] at this

end Wamp.Dealer

namespace Wamp.System
open Requests
variable {w : Str → Str → Bool} {f : Nat → Nat → Nat}

private def bEvent (f : Nat → Nat → Nat) (e : Broker.Event) : Broker.Event := ⟨Requests.brokerOp f e.op, e.res.map (Requests.brokerOut f)⟩
private def dEvent (f : Nat → Nat → Nat) (e : Dealer.Event) : Dealer.Event := ⟨Requests.dealerOp f e.op, e.res.map (Requests.dealerOut f)⟩

/-- The system with the new request IDs. -/
private noncomputable def Sys.renum (f : Nat → Nat → Nat) (x : Sys) : Sys where
  broker := x.broker
  dealer := x.dealer.renum f
  client := fun s => (x.client s).renum (f s)
  up := fun s => (x.up s).map (msg (f s))
  down := fun s => (x.down s).map (msg (f s))
  sent := fun s => (x.sent s).map (msg (f s))
  joined := x.joined
  bh := x.bh.map (bEvent f)
  dh := x.dh.map (dEvent f)

private noncomputable def Log.renum (f : Nat → Nat → Nat) (l : Log) : Log := ⟨l.sys.renum f, fun s => (l.got s).map (msg (f s))⟩

private theorem map_upd (m : Nat → List Msg) (s : Nat) (l : List Msg) :
    upd (fun s => (m s).map (msg (f s))) s (l.map (msg (f s))) = fun x => (upd m s l x).map (msg (f x)) := by
  funext x
  simp only [upd]
  split
  · rename_i h; subst h; rfl
  · rfl

private theorem client_upd (m : Nat → Session.State) (s : Nat) (c : Session.State) :
    upd (fun s => (m s).renum (f s)) s (c.renum (f s)) = fun x => (upd m s c x).renum (f x) := by
  funext x
  simp only [upd]
  split
  · rename_i h; subst h; rfl
  · rfl

private theorem event_same (w : Str → Str → Bool) (b : Broker.State) (op : Broker.Op) (p : Broker.Publication) (e : Msg)
    (h : (Broker.step w b op).2 = .ok (.pub p)) (he : p.event = some e) (g : Nat → Nat) : msg g e = e := by
  cases op with
  | add d => simp only [Broker.step] at h; cases hx : (Broker.addSession b d).2 <;> rw [hx] at h <;> cases h
  | remove s o => simp only [Broker.step] at h; cases hx : (Broker.removeSession b s o).2 <;> rw [hx] at h <;> cases h
  | has t => cases h
  | disclose on => cases h
  | receive s m => simp only [Broker.step] at h; cases hx : (Broker.receive b s m).2 <;> rw [hx] at h <;> cases h
  | publish s q o t a k wo so =>
    simp only [Broker.step] at h
    cases hx : (Broker.publish w b s q o t a k wo so).2 with
    | ok p' =>
      rw [hx] at h
      cases h
      simp only [Broker.publish] at hx
      split at hx
      · cases hx
      · split at hx
        · cases hx; cases he
        · split at hx
          · cases hx; cases he
          · split at hx
            · cases hx; cases he; rfl
            · cases hx
            · cases hx
    | err => rw [hx] at h; cases h
    | panic => rw [hx] at h; cases h

private theorem brokerOut_renum (b : Broker.State) (op : Broker.Op) :
    brokerOut ((Broker.step w b op).2.map (Requests.brokerOut f)) = (brokerOut (Broker.step w b op).2).map fun p => (p.1, msg (f p.1) p.2) := by
  have he := event_same w b op
  cases hx : (Broker.step w b op).2 with
  | err => rfl
  | panic => rfl
  | ok o =>
    cases o with
    | unit => rfl
    | bool b => rfl
    | msg m s => rfl
    | pub p =>
      have he' := fun e h => he p e hx h
      obtain ⟨e, rs, a⟩ := p
      cases e with
      | none => cases a <;> rfl
      | some e =>
        have hm : ∀ s, msg (f s) e = e := fun s => he' e rfl (f s)
        cases a <;> simp [brokerOut, Requests.brokerOut, hm]

private theorem dealerOut_renum (x : Res Dealer.Out) :
    dealerOut (x.map (Requests.dealerOut f)) = (dealerOut x).map fun p => (p.1, msg (f p.1) p.2) := by
  cases x with
  | err => rfl
  | panic => rfl
  | ok o => cases o <;> rfl

private theorem onBroker_renum (x : Sys) (op : Broker.Op) : (x.renum f).onBroker w (Requests.brokerOp f op) = (x.onBroker w op).renum f := by
  have h : Broker.step w (x.renum f).broker (Requests.brokerOp f op) = _ := Broker.step_renum x.broker op
  simp only [Sys.onBroker, h]
  rfl

private theorem onDealer_renum (hf : Distinct f) (x : Sys) (op : Dealer.Op) :
    (x.renum f).onDealer w (Requests.dealerOp f op) = (x.onDealer w op).map (Sys.renum f) := by
  have h : Dealer.step w (x.renum f).dealer (Requests.dealerOp f op) = _ := Dealer.step_renum hf x.dealer op
  simp only [Sys.onDealer, h]
  cases e : (Dealer.step w x.dealer op).2 <;> rfl

private theorem post_renum (x : Sys) (out : List (Nat × Msg)) :
    (x.renum f).post (out.map fun p => (p.1, msg (f p.1) p.2)) = (x.post out).renum f := by
  have h : ∀ s, messagesFor s (out.map fun p => (p.1, msg (f p.1) p.2)) = (messagesFor s out).map (msg (f s)) := by
    intro s
    unfold messagesFor
    induction out with
    | nil => rfl
    | cons p out ih =>
      by_cases hp : p.1 = s
      · subst hp
        simpa using ih
      · simpa [hp] using ih
  have : (fun s => (x.renum f).down s ++ messagesFor s (out.map fun p => (p.1, msg (f p.1) p.2))) = fun s => (x.down s ++ messagesFor s out).map (msg (f s)) := by
    funext s
    rw [h, List.map_append]
    rfl
  simp only [Sys.post, this]
  rfl

private theorem handle_renum (hf : Distinct f) (x : Sys) (s : Nat) (m : Msg) (wo : List Str) (so : List Nat) (rnd : Nat) :
    (x.renum f).handle w s (msg (f s) m) wo so rnd = (x.handle w s m wo so rnd).map (Sys.renum f) := by
  have hb : ∀ op : Broker.Op, ((x.renum f).onBroker w (Requests.brokerOp f op)).post (brokerOut (Broker.step w (x.renum f).broker (Requests.brokerOp f op)).2) =
      ((x.onBroker w op).post (brokerOut (Broker.step w x.broker op).2)).renum f := by
    intro op
    have h : Broker.step w (x.renum f).broker (Requests.brokerOp f op) = _ := Broker.step_renum x.broker op
    rw [h, onBroker_renum, brokerOut_renum, post_renum]
  have hd : ∀ op : Dealer.Op, (((x.renum f).onDealer w (Requests.dealerOp f op)).map fun y =>
        y.post (dealerOut (Dealer.step w (x.renum f).dealer (Requests.dealerOp f op)).2)) =
      ((x.onDealer w op).map fun y => y.post (dealerOut (Dealer.step w x.dealer op).2)).map (Sys.renum f) := by
    intro op
    have h : Dealer.step w (x.renum f).dealer (Requests.dealerOp f op) = _ := Dealer.step_renum hf x.dealer op
    rw [h, onDealer_renum hf, dealerOut_renum, Option.map_map, Option.map_map]
    cases x.onDealer w op with
    | none => rfl
    | some y => exact congrArg some (post_renum y _)
  cases m with
  | publish q o t a k => exact congrArg some (hb (.publish s q o t a k wo so))
  | subscribe q o t => exact congrArg some (hb (.receive s (.subscribe q o t)))
  | unsubscribe q i => exact congrArg some (hb (.receive s (.unsubscribe q i)))
  | call q o p a k bin => exact hd (.receive s (.call q o p a k bin) wo rnd)
  | yield q o a k bin => exact hd (.receive s (.yield q o a k bin) wo rnd)
  | register q o p => exact hd (.receive s (.register q o p) wo rnd)
  | unregister q i => exact hd (.receive s (.unregister q i) wo rnd)
  | error t q d u a k => exact hd (.receive s (.error t q d u a k) wo rnd)
  | _ => rfl

private def action (f : Nat → Nat → Nat) : Action → Action
  | .send s data m => .send s data (msg (f s) m)
  | a => a

private theorem act_renum (hf : Distinct f) (x : Sys) (a : Action) : (x.renum f).act w (action f a) = (x.act w a).map (Sys.renum f) := by
  cases a with
  | join d =>
    simp only [action, Sys.act]
    show (if d.id ∈ x.joined then _ else _) = _
    split
    · rfl
    · exact (congrArg (fun y => Sys.onDealer w y (.add d)) (onBroker_renum ({ x with joined := d.id :: x.joined } : Sys) (.add d))).trans
        (onDealer_renum hf _ (.add d))
  | leave s o o' =>
    exact (congrArg (fun y => Sys.onDealer w y (.remove s o')) (onBroker_renum x (.remove s o))).trans (onDealer_renum hf _ (.remove s o'))
  | disclose p c =>
    exact (congrArg (fun y => Sys.onDealer w y (.disclose c)) (onBroker_renum x (.disclose p))).trans (onDealer_renum hf _ (.disclose c))
  | send s data m =>
    simp only [action, Sys.act]
    rw [show (x.renum f).client s = (x.client s).renum (f s) from rfl, Session.send_renum (hf s)]
    rcases h : (Session.send (.ok data) m).run (x.client s) with ⟨c, t⟩
    cases t with
    | err => rfl
    | panic => rfl
    | ok b =>
      simp only
      show (if s ∈ x.joined then _ else _) = _
      split
      · have e1 : (x.renum f).up s ++ [msg (f s) m] = (x.up s ++ [m]).map (msg (f s)) := by
          rw [List.map_append]; rfl
        have e2 : msg (f s) m :: (x.renum f).sent s = (m :: x.sent s).map (msg (f s)) := rfl
        rw [e1, e2]
        simp only [Option.map_some, Sys.renum, map_upd, client_upd]
      · rfl
  | route s wo so rnd =>
    simp only [action, Sys.act]
    rw [show (x.renum f).up s = (x.up s).map (msg (f s)) from rfl]
    cases h : x.up s with
    | nil => rfl
    | cons m rest =>
      refine Eq.trans ?_ (handle_renum hf ({ x with up := upd x.up s rest } : Sys) s m wo so rnd)
      simp only [List.map_cons, Sys.renum, map_upd]
  | deliver s =>
    simp only [action, Sys.act]
    rw [show (x.renum f).down s = (x.down s).map (msg (f s)) from rfl]
    cases h : x.down s with
    | nil => rfl
    | cons m rest =>
      simp only [List.map_cons, Option.map_some]
      rw [show (x.renum f).client s = (x.client s).renum (f s) from rfl, Session.recv_renum (hf s)]
      simp only [Sys.renum, map_upd, client_upd]

private theorem move_renum (hf : Distinct f) (F : Nat → Bool) (l : Log) (v : Move) :
    (l.renum f).move w F (Requests.move f v) = (l.move w F v).map (Log.renum f) := by
  have hc : ∀ a : Action, (l.renum f).act w (action f a) = (l.act w a).map (Log.renum f) := by
    intro a
    have h := act_renum (w := w) hf l.sys a
    simp only [Log.act]
    show (Sys.act w (l.sys.renum f) _).map _ = _
    rw [h, Option.map_map, Option.map_map]
    cases l.sys.act w a with
    | none => rfl
    | some y =>
      refine congrArg some ?_
      cases a with
      | deliver s =>
        show Log.mk _ (upd (fun s => (l.got s).map (msg (f s))) s ((l.got s).map (msg (f s)) ++ ((l.sys.down s).map (msg (f s))).take 1)) = _
        rw [← List.map_take, ← List.map_append, map_upd]
        rfl
      | _ => rfl
  cases v with
  | inject s m =>
    simp only [Requests.move, Log.move]
    rw [show (l.renum f).sys.joined = l.sys.joined from rfl]
    split
    · have e1 : (l.renum f).sys.up s ++ [msg (f s) m] = (l.sys.up s ++ [m]).map (msg (f s)) := by
        rw [List.map_append]; rfl
      have e2 : msg (f s) m :: (l.renum f).sys.sent s = (m :: l.sys.sent s).map (msg (f s)) := rfl
      rw [e1, e2]
      simp only [Option.map_some, Log.renum, Sys.renum, map_upd]
    · rfl
  | act a =>
    cases a with
    | send s data m =>
      simp only [Requests.move, Log.move]
      split
      · rfl
      · exact hc (.send s data m)
    | join d => exact hc (.join d)
    | leave s o o' => exact hc (.leave s o o')
    | disclose p c => exact hc (.disclose p c)
    | route s wo so rnd => exact hc (.route s wo so rnd)
    | deliver s => exact hc (.deliver s)

private theorem moves_renum (hf : Distinct f) (F : Nat → Bool) (vs : List Move) (l : Log) :
    (l.renum f).moves w F (vs.map (Requests.move f)) = (l.moves w F vs).map (Log.renum f) := by
  induction vs generalizing l with
  | nil => rfl
  | cons v vs ih =>
    simp only [List.map_cons, Log.moves, move_renum hf]
    cases l.move w F v with
    | none => rfl
    | some l' => exact ih l'

/-- **C162.** A router and its clients, some of which need not use this library: if the clients used other request IDs, different ones for
different requests of a client, the same would happen with the new IDs.  What is possible stays possible, what is not does not become so;
every client has sent and got the same messages, with the new IDs of its requests in them. -/
theorem C162_system (hf : Distinct f) (F : Nat → Bool) (vs : List Move) :
    match Log.new.moves w F vs, Log.new.moves w F (vs.map (Requests.move f)) with
    | none, none => True
    | some l, some l' => ∀ s, l'.inbox s = (l.inbox s).map (msg (f s)) ∧ l'.outbox s = (l.outbox s).map (msg (f s))
    | _, _ => False := by
  have h := moves_renum (w := w) hf F vs Log.new
  have h0 : Log.renum f Log.new = Log.new := by
    have : (fun s => Session.init.renum (f s)) = fun _ => Session.init := by funext s; exact Session.renum_init
    show Log.mk ⟨_, Dealer.init.renum f, (fun s => Session.init.renum (f s)), _, _, _, _, _, _⟩ _ = _
    rw [Dealer.renum_init, this]
    rfl
  rw [h0] at h
  rw [h]
  cases Log.new.moves w F vs with
  | none => trivial
  | some l =>
    intro s
    exact ⟨(List.map_append ..).symm, (List.map_reverse ..).symm⟩

/-- Client 1 counts its requests from 5000, client 7 from 100: client 1 calls and gets its RESULT with the new ID. -/
example : let vs : List Move :=
      [.act (.join ⟨1, [], [], [], [], false, none, none⟩), .act (.join ⟨7, [], [], [], [], false, none, none⟩),
       .act (.send 7 [] (.register 1 none (str "p"))), .act (.route 7 [] [] 0), .act (.deliver 7),
       .act (.send 1 [] (.call 1 none (str "p") none none Bin.none)), .act (.route 1 [] [] 0), .act (.deliver 7),
       .act (.send 7 [] (.yield 2 none none none Bin.none)), .act (.route 7 [] [] 0)]
    let f : Nat → Nat → Nat := fun s q => if s = 1 then q + 5000 else q + 100
    let results (l : Log) : List Nat := (l.inbox 1).filterMap fun | .result q _ _ _ _ => some q | _ => none
    let confirmed (l : Log) : List (Nat × Nat) := (l.inbox 7).filterMap fun | .registered q i => some (q, i) | .invocation q i _ _ _ _ => some (q, i) | _ => none
    ((Log.new.moves (fun _ _ => false) (fun _ => false) vs).map fun l => (results l, confirmed l)) = some ([1], [(1, 1), (2, 1)]) ∧
    ((Log.new.moves (fun _ _ => false) (fun _ => false) (vs.map (Requests.move f))).map fun l => (results l, confirmed l)) = some ([5001], [(101, 1), (2, 1)]) := by
  decide +kernel

example : Distinct fun s q => if s = 1 then q + 5000 else q + 100 := by
  intro s a b h
  simp only at h
  split at h <;> omega

/-- If two requests get the same ID, the dealer does not return the same: the second CALL, with progress, is a part of the first one. -/
example : let d (n : Nat) : SessionDetails := ⟨n, [], [], [], [], false, none, none⟩
    let c (q : Nat) : Dealer.Op := .receive 1 (.call q (some [(str "progress", .bool true)]) (str "p") none none Bin.none) [] 0
    let ops : List Dealer.Op := [.add (d 1), .add (d 2), .receive 2 (.register 1 none (str "p")) [] 0, c 1, c 2]
    let ids (l : List (Res Dealer.Out)) : List Nat := l.filterMap fun | .ok (.msg (.invocation i ..) _) => some i | _ => none
    ids (Dealer.replies (fun _ _ => false) Dealer.init ops) = [2, 3] ∧
    ids (Dealer.replies (fun _ _ => false) Dealer.init (ops.map (Requests.dealerOp fun _ _ => 1))) = [2, 2] := by
  decide +kernel

end Wamp.System
