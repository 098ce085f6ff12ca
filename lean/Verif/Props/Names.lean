import Verif.Spec.Names
/-!
# C153: session IDs are only names
-/
namespace Wamp
variable {w : Str → Str → Bool} (r : Renaming)

namespace Renaming

private theorem inj {a b : Nat} : r.new a = r.new b ↔ a = b :=
  ⟨fun h => by have := congrArg r.old h; rwa [r.old_new, r.old_new] at this, fun h => h ▸ rfl⟩

private theorem old_eq {a b : Nat} : r.old a = b ↔ a = r.new b :=
  ⟨fun h => by rw [← h, r.new_old], fun h => by rw [h, r.old_new]⟩

private theorem mem_map {a : Nat} {l : List Nat} : r.new a ∈ l.map r.new ↔ a ∈ l := by
  simp only [List.mem_map]
  exact ⟨fun ⟨b, hb, e⟩ => (inj r).1 e ▸ hb, fun h => ⟨a, h, rfl⟩⟩

private theorem contains_map (a : Nat) (l : List Nat) : (l.map r.new).contains (r.new a) = l.contains a := by
  rw [Bool.eq_iff_iff]
  simp only [List.contains_iff_mem]
  exact mem_map r

private theorem filter_map' (p q : Nat → Bool) (h : ∀ a, q (r.new a) = p a) (l : List Nat) : (l.map r.new).filter q = (l.filter p).map r.new := by
  rw [List.filter_map]
  congr 1
  apply List.filter_congr
  intro a _
  exact h a

private theorem filter_ne (s : Nat) (l : List Nat) : (l.map r.new).filter (fun x => decide (x ≠ r.new s)) = (l.filter (fun x => decide (x ≠ s))).map r.new :=
  filter_map' r _ _ (fun a => by simp only [ne_eq, inj r]) l

private theorem eraseDups_map : ∀ (n : Nat) (l : List Nat), l.length ≤ n → (l.map r.new).eraseDups = l.eraseDups.map r.new := by
  intro n
  induction n with
  | zero => intro l h; cases l with | nil => rfl | cons a l => simp at h
  | succ n ih =>
    intro l h
    cases l with
    | nil => rfl
    | cons a l =>
      rw [List.map_cons, List.eraseDups_cons, List.eraseDups_cons, List.map_cons]
      rw [filter_map' r (fun b => !b == a) _ (fun b => by rw [Bool.eq_iff_iff]; simp [inj r])]
      rw [ih]
      exact Nat.le_trans (List.length_filter_le _ _) (by simpa using h)

private theorem arrange_map (o l : List Nat) : arrange (o.map r.new) (l.map r.new) = (arrange o l).map r.new := by
  unfold arrange
  rw [eraseDups_map r _ o (Nat.le_refl _), List.map_append]
  congr 1
  · exact filter_map' r _ _ (fun a => contains_map r a l) _
  · exact filter_map' r _ _ (fun a => by rw [contains_map]) _

/-- A table indexed by session IDs. -/
private def tab {α : Type} (m : Nat → α) : Nat → α := fun s => m (r.old s)

private theorem tab_new {α : Type} (m : Nat → α) (s : Nat) : tab r m (r.new s) = m s := by simp only [tab, r.old_new]

private theorem tab_set {V : Type} (m : FMap Nat V) (s : Nat) (v : V) : FMap.set (tab r m) (r.new s) v = tab r (FMap.set m s v) := by
  funext x
  simp only [FMap.set, tab, old_eq r]

private theorem tab_del {V : Type} (m : FMap Nat V) (s : Nat) : FMap.del (tab r m) (r.new s) = tab r (FMap.del m s) := by
  funext x
  simp only [FMap.del, tab, old_eq r]

private theorem tab_upd {α : Type} (m : Nat → α) (s : Nat) (v : α) : System.upd (tab r m) (r.new s) v = tab r (System.upd m s v) := by
  funext x
  simp only [System.upd, tab, old_eq r]

private theorem under_dset (k : String) (k' : Str) (v : Val) (hk : k' ≠ str k) (d : Dict) : r.under k (dset d k' v) = dset (r.under k d) k' v := by
  induction d with
  | nil => simp [dset, Renaming.under, hk]
  | cons x d ih =>
    obtain ⟨a, b⟩ := x
    have hc : ∀ (x : Str × Val) (d : Dict), r.under k (x :: d) = (x.1, if x.1 = str k then (match x.2 with | .uint .u64 n => .u64 (r.new n) | v => v) else x.2) :: r.under k d :=
      fun _ _ => rfl
    by_cases h1 : k' = a
    · subst h1
      simp only [dset, if_true, hc, hk, if_false]
    · by_cases h2 : strLt k' a = true
      · simp only [dset, h1, if_false, h2, if_true, hc, hk]
      · simp only [dset, h1, if_false, h2, hc, ih, Bool.false_eq_true]

end Renaming

namespace Broker

private def Sub.as (x : Sub) : Sub := { x with subscribers := x.subscribers.map r.new }

/-- The broker with the new IDs. -/
private def State.as (b : State) : State :=
  { b with
    heap := fun a => (b.heap a).as r
    bySession := Renaming.tab r b.bySession
    sessions := Renaming.tab r fun s => (b.sessions s).map r.session }

private theorem hset_as (h : Nat → Sub) (a : Nat) (x : Sub) : hset (fun a => (h a).as r) a (x.as r) = fun b => (hset h a x b).as r := by
  funext b
  simp only [hset]
  split <;> rfl

private theorem set_as (m : FMap Nat SessionDetails) (s : Nat) (d : SessionDetails) :
    FMap.set (Renaming.tab r fun s => (m s).map r.session) (r.new s) (r.session d) = Renaming.tab r fun x => (FMap.set m s d x).map r.session := by
  funext x
  simp only [FMap.set, Renaming.tab, Renaming.old_eq r]
  split <;> rfl

private theorem del_as (m : FMap Nat SessionDetails) (s : Nat) :
    FMap.del (Renaming.tab r fun s => (m s).map r.session) (r.new s) = Renaming.tab r fun x => (FMap.del m s x).map r.session := by
  funext x
  simp only [FMap.del, Renaming.tab, Renaming.old_eq r]
  split <;> rfl

private theorem addSession_as (b : State) (d : SessionDetails) : addSession (b.as r) (r.session d) = ((addSession b d).1.as r, (addSession b d).2) := by
  unfold addSession
  have h : (b.as r).bySession (r.session d).id = b.bySession d.id := Renaming.tab_new r _ _
  rw [h]
  split
  · rfl
  · refine Prod.ext ?_ rfl
    show State.mk _ _ _ (FMap.set (Renaming.tab r b.bySession) (r.new d.id) [])
      (FMap.set (Renaming.tab r fun s => (b.sessions s).map r.session) (r.new d.id) (r.session d)) _ _ _ _ = _
    rw [Renaming.tab_set, set_as]
    rfl

private theorem drop_as (x : Sub) (s : Nat) : ({ x.as r with subscribers := (x.as r).subscribers.filter (· ≠ r.new s) } : Sub) =
    Sub.as r { x with subscribers := x.subscribers.filter (· ≠ s) } := by
  show Sub.mk _ _ _ _ = Sub.mk _ _ _ _
  congr 1
  exact Renaming.filter_ne r s x.subscribers

private theorem removeStep_as (s : Nat) (b : State) (a : Nat) : removeStep (r.new s) (b.as r) a = (removeStep s b a).map (State.as r) := by
  unfold removeStep
  have h : (b.as r).byTopic ((b.as r).heap a).topic = b.byTopic (b.heap a).topic := rfl
  simp only [h]
  cases b.byTopic (b.heap a).topic with
  | none => rfl
  | some p =>
    have e : (b.as r).heap p = (b.heap p).as r := rfl
    have h1 := drop_as r (b.heap p) s
    have h2 : (List.filter (fun x => decide (x ≠ r.new s)) ((b.heap p).as r).subscribers).isEmpty = (List.filter (fun x => decide (x ≠ s)) (b.heap p).subscribers).isEmpty :=
      (congrArg List.isEmpty (Renaming.filter_ne r s (b.heap p).subscribers)).trans (List.isEmpty_map ..)
    simp only [e, h2]
    rw [h1]
    simp only [State.as, hset_as]
    rfl

private theorem removeLoop_as (s : Nat) (l : List Nat) (b : State) : removeLoop (r.new s) (b.as r) l = (removeLoop s b l).map (State.as r) := by
  induction l generalizing b with
  | nil => rfl
  | cons a l ih =>
    simp only [removeLoop, removeStep_as]
    cases removeStep s b a with
    | ok b' => exact ih b'
    | err => rfl
    | panic => rfl

private theorem removeSession_as (b : State) (s : Nat) (o : List Nat) :
    removeSession (b.as r) (r.new s) o = ((removeSession b s o).1.as r, (removeSession b s o).2) := by
  unfold removeSession
  have h : (b.as r).bySession (r.new s) = b.bySession s := Renaming.tab_new r _ _
  have h' : ({ b.as r with bySession := (b.as r).bySession.del (r.new s) } : State) = State.as r { b with bySession := b.bySession.del s } := by
    show State.mk _ _ _ (FMap.del (Renaming.tab r b.bySession) (r.new s)) _ _ _ _ _ = _
    rw [Renaming.tab_del]
    rfl
  rw [h]
  cases b.bySession s with
  | none => rfl
  | some m =>
    simp only [h', removeLoop_as]
    cases removeLoop s { b with bySession := b.bySession.del s } ((arrange o m.keys).filterMap m.get) with
    | ok b' =>
      refine Prod.ext ?_ rfl
      show State.mk _ _ _ _ (FMap.del (Renaming.tab r fun s => (b'.sessions s).map r.session) (r.new s)) _ _ _ _ = _
      rw [del_as]
      rfl
    | err => rfl
    | panic => rfl

private theorem subscribe_as (b : State) (s q : Nat) (o : GoMap) (t : Str) :
    subscribe (b.as r) (r.new s) q o t = ((subscribe b s q o t).1.as r, (subscribe b s q o t).2.map fun x => (r.msg x.1, r.new x.2)) := by
  unfold subscribe
  have h : (b.as r).bySession (r.new s) = b.bySession s := Renaming.tab_new r _ _
  rw [h]
  cases b.bySession s with
  | none => rfl
  | some m =>
    show (match b.byTopic t with | some p => _ | none => _) = _
    cases b.byTopic t with
    | some p =>
      simp only
      have e : ({ (b.as r).heap p with subscribers := if ((b.as r).heap p).subscribers.contains (r.new s) then ((b.as r).heap p).subscribers else ((b.as r).heap p).subscribers ++ [r.new s] } : Sub) =
          Sub.as r { b.heap p with subscribers := if (b.heap p).subscribers.contains s then (b.heap p).subscribers else (b.heap p).subscribers ++ [s] } := by
        show Sub.mk _ _ (if ((b.heap p).subscribers.map r.new).contains (r.new s) then (b.heap p).subscribers.map r.new else (b.heap p).subscribers.map r.new ++ [r.new s]) _ = _
        rw [Renaming.contains_map]
        unfold Sub.as
        congr 1
        split <;> simp
      rw [e]
      refine Prod.ext ?_ rfl
      show State.mk (hset (fun a => (b.heap a).as r) _ _) _ _ (FMap.set (Renaming.tab r b.bySession) (r.new s) _) _ _ _ _ _ = _
      rw [hset_as, Renaming.tab_set]
      rfl
    | none =>
      refine Prod.ext ?_ rfl
      show State.mk (hset (fun a => (b.heap a).as r) _ (Sub.as r ⟨_, t, [s], _⟩)) _ _ (FMap.set (Renaming.tab r b.bySession) (r.new s) _) _ _ _ _ _ = _
      rw [hset_as, Renaming.tab_set]
      rfl

private theorem unsubscribe_as (b : State) (s q i : Nat) :
    unsubscribe (b.as r) (r.new s) q i = ((unsubscribe b s q i).1.as r, (unsubscribe b s q i).2.map fun x => (r.msg x.1, r.new x.2)) := by
  unfold unsubscribe
  have h : (b.as r).bySession (r.new s) = b.bySession s := Renaming.tab_new r _ _
  rw [h]
  cases b.bySession s with
  | none => rfl
  | some m =>
    simp only
    cases m.get i with
    | none => rfl
    | some p =>
      have e : (b.as r).heap p = (b.heap p).as r := rfl
      have h1 := drop_as r (b.heap p) s
      have h2 : (List.filter (fun x => decide (x ≠ r.new s)) ((b.heap p).as r).subscribers).isEmpty = (List.filter (fun x => decide (x ≠ s)) (b.heap p).subscribers).isEmpty :=
        (congrArg List.isEmpty (Renaming.filter_ne r s (b.heap p).subscribers)).trans (List.isEmpty_map ..)
      simp only [e, h2]
      rw [h1]
      simp only [State.as, hset_as, Renaming.tab_set]
      rfl

private theorem lookup_as (b : State) (o : List Str) (t : Str) : lookup w o (b.as r) t = lookup w o b t := by
  unfold lookup
  show (match b.byTopic t with | some p => _ | none => _) = _
  cases b.byTopic t with
  | none => rfl
  | some p =>
    show (if ((b.heap p).subscribers.map r.new).isEmpty then _ else _) = _
    rw [List.isEmpty_map]
    rfl

private theorem eventDetails_as (b : State) (s : Nat) (t : Str) : eventDetails (b.as r) (r.new s) t = (eventDetails b s t).map (r.under "publisher") := by
  unfold eventDetails
  show (if b.details then _ else _) = _
  have h : (b.as r).sessions (r.new s) = (b.sessions s).map r.session := Renaming.tab_new r (fun s => (b.sessions s).map r.session) s
  rw [h]
  cases b.details with
  | false => rfl
  | true =>
    cases b.sessions s with
    | none => rfl
    | some p => rfl

private theorem publish_as (b : State) (s q : Nat) (o : GoMap) (t : Str) (a : GoSlice) (k : GoMap) (wo : List Str) (so : List Nat) :
    publish w (b.as r) (r.new s) q o t a k wo (so.map r.new) =
      ((publish w b s q o t a k wo so).1.as r, (publish w b s q o t a k wo so).2.map fun p =>
        ⟨p.event.map r.msg, p.recipients.map r.new, p.ack.map fun x => (r.msg x.1, r.new x.2)⟩) := by
  unfold publish
  have h : (b.as r).bySession (r.new s) = b.bySession s := Renaming.tab_new r _ _
  rw [h]
  cases b.bySession s with
  | none => rfl
  | some m =>
    simp only [lookup_as, eventDetails_as]
    cases lookup w wo b t with
    | none => cases o.flag (str "acknowledge") <;> rfl
    | some p =>
      have e : (b.as r).heap p = (b.heap p).as r := rfl
      have e' : ((b.heap p).as r).subscribers.isEmpty = (b.heap p).subscribers.isEmpty := List.isEmpty_map ..
      have e'' : arrange (so.map r.new) ((b.heap p).as r).subscribers = (arrange so (b.heap p).subscribers).map r.new := Renaming.arrange_map r _ _
      simp only [e, e', e'']
      split
      · cases o.flag (str "acknowledge") <;> rfl
      · cases eventDetails b s t with
        | ok d => cases o.flag (str "acknowledge") <;> rfl
        | err => rfl
        | panic => rfl

private theorem step_as (b : State) (op : Op) : step w (b.as r) (r.brokerOp op) = ((step w b op).1.as r, (step w b op).2.map r.brokerOut) := by
  cases op with
  | add d =>
    simp only [Renaming.brokerOp, step, addSession_as]
    cases (addSession b d).2 <;> rfl
  | remove s o =>
    simp only [Renaming.brokerOp, step, removeSession_as]
    cases (removeSession b s o).2 <;> rfl
  | has t => rfl
  | disclose on => rfl
  | receive s m =>
    cases m with
    | subscribe q o t =>
      simp only [Renaming.brokerOp, Renaming.msg, step, receive, subscribe_as]
      cases (subscribe b s q o t).2 <;> rfl
    | unsubscribe q i =>
      simp only [Renaming.brokerOp, Renaming.msg, step, receive, unsubscribe_as]
      cases (unsubscribe b s q i).2 <;> rfl
    | _ => rfl
  | publish s q o t a k wo so =>
    simp only [Renaming.brokerOp, step, publish_as]
    cases (publish w b s q o t a k wo so).2 <;> rfl

end Broker

namespace Dealer

private def Reg.as (x : Reg) : Reg := { x with registrants := x.registrants.map r.new, callees := x.callees.map r.new }

private def Pending.as (x : Pending) : Pending := { x with callerID := r.new x.callerID, calleeID := r.new x.calleeID }

/-- The dealer with the new IDs. -/
private def State.as (b : State) : State :=
  { b with
    heap := fun a => (b.heap a).as r
    bySession := Renaming.tab r b.bySession
    sessions := Renaming.tab r fun s => (b.sessions s).map r.session
    pending := b.pending.map fun x => (x.1, x.2.as r)
    invByCall := fun x => b.invByCall (r.old x.1, x.2) }

private theorem hset_as (h : Nat → Reg) (a : Nat) (x : Reg) : hset (fun a => (h a).as r) a (x.as r) = fun b => (hset h a x b).as r := by
  funext b
  simp only [hset]
  split <;> rfl

private theorem inv_as (m : FMap (Nat × Nat) Nat) (s q i : Nat) :
    FMap.set (fun x => m (r.old x.1, x.2)) (r.new s, q) i = fun x => FMap.set m (s, q) i (r.old x.1, x.2) := by
  funext x
  obtain ⟨x, y⟩ := x
  simp only [FMap.set, Prod.mk.injEq, Renaming.old_eq r]

private theorem get_as (m : AMap Nat Pending) (i : Nat) : AMap.get (m.map fun x => (x.1, x.2.as r)) i = (AMap.get m i).map (Pending.as r) := by
  induction m with
  | nil => rfl
  | cons x m ih =>
    simp only [List.map_cons, AMap.get]
    split
    · rfl
    · exact ih

private theorem del_as' (m : AMap Nat Pending) (i : Nat) : AMap.del (m.map fun x => (x.1, x.2.as r)) i = (AMap.del m i).map fun x => (x.1, x.2.as r) := by
  induction m with
  | nil => rfl
  | cons x m ih =>
    simp only [List.map_cons, AMap.del, ih]
    split <;> rfl

private theorem set_as' (m : AMap Nat Pending) (i : Nat) (x : Pending) :
    AMap.set (m.map fun x => (x.1, x.2.as r)) i (x.as r) = (AMap.set m i x).map fun x => (x.1, x.2.as r) := by
  induction m with
  | nil => rfl
  | cons x m ih =>
    simp only [List.map_cons, AMap.set, ih]
    split <;> rfl

private theorem addSession_as (b : State) (d : SessionDetails) : addSession (b.as r) (r.session d) = ((addSession b d).1.as r, (addSession b d).2) := by
  unfold addSession
  have h : ((b.as r).sessions (r.session d).id).isSome = (b.sessions d.id).isSome := by
    have : (b.as r).sessions (r.session d).id = (b.sessions d.id).map r.session := Renaming.tab_new r (fun s => (b.sessions s).map r.session) d.id
    rw [this, Option.isSome_map]
  rw [h]
  split
  · rfl
  · refine Prod.ext ?_ rfl
    show State.mk _ _ (FMap.set (Renaming.tab r fun s => (b.sessions s).map r.session) (r.new d.id) (r.session d)) _
      (FMap.set (Renaming.tab r b.bySession) (r.new d.id) []) _ _ _ _ _ _ = _
    rw [Broker.set_as, Renaming.tab_set]
    rfl

private theorem surgery_as (s : Nat) (k i : Nat) (bk : List Nat) (len : Nat) :
    surgery (r.new s) k i (bk.map r.new) len = (surgery s k i bk len).map fun l => l.map r.new := by
  induction k generalizing i bk len with
  | zero => simp only [surgery, Res.map_ok, List.map_take]
  | succ k ih =>
    have h : ((bk.map r.new)[i]? = some (r.new s)) ↔ (bk[i]? = some s) := by
      rw [List.getElem?_map]
      cases bk[i]? with
      | none => simp
      | some x => simp [Renaming.inj r]
    have h2 : (bk.map r.new).take i ++ ((bk.map r.new).take len).drop (i + 1) ++ (bk.map r.new).drop (len - 1) =
        (bk.take i ++ (bk.take len).drop (i + 1) ++ bk.drop (len - 1)).map r.new := by
      simp only [List.map_append, List.map_take, List.map_drop]
    unfold surgery
    by_cases c1 : bk[i]? = some s
    · rw [if_pos c1, if_pos (h.2 c1)]
      split
      · exact ih ..
      · split
        · rfl
        · rw [h2]; exact ih ..
    · rw [if_neg c1, if_neg (fun c => c1 (h.1 c))]
      exact ih ..

private theorem removeStep_as (s : Nat) (b : State) (a : Nat) : removeStep (r.new s) (b.as r) a = (removeStep s b a).map (State.as r) := by
  unfold removeStep
  have h : (b.as r).byProc ((b.as r).heap a).procedure = b.byProc (b.heap a).procedure := rfl
  simp only [h]
  cases b.byProc (b.heap a).procedure with
  | none => rfl
  | some p =>
    have e : (b.as r).heap p = (b.heap p).as r := rfl
    have e' : ((b.heap p).as r).callees = (b.heap p).callees.map r.new := rfl
    have h2 : (List.filter (fun x => decide (x ≠ r.new s)) ((b.heap p).as r).registrants) = (List.filter (fun x => decide (x ≠ s)) (b.heap p).registrants).map r.new :=
      Renaming.filter_ne r s (b.heap p).registrants
    simp only [e, e', h2, List.length_map, surgery_as, List.isEmpty_map]
    cases surgery s (b.heap p).callees.length 0 (b.heap p).callees (b.heap p).callees.length with
    | ok cs =>
      simp only [Res.map_ok, Res.bind_ok]
      show Res.ok (State.mk (hset (fun a => (b.heap a).as r) p (Reg.as r { b.heap p with registrants := (b.heap p).registrants.filter (· ≠ s), callees := cs })) _ _ _ _ _ _ _ _ _ _) = _
      rw [hset_as]
      rfl
    | err => rfl
    | panic => rfl

private theorem removeLoop_as (s : Nat) (l : List Nat) (b : State) : removeLoop (r.new s) (b.as r) l = (removeLoop s b l).map (State.as r) := by
  induction l generalizing b with
  | nil => rfl
  | cons a l ih =>
    simp only [removeLoop, removeStep_as]
    cases removeStep s b a with
    | ok b' => exact ih b'
    | err => rfl
    | panic => rfl

private theorem removeSession_as (b : State) (s : Nat) (o : List Nat) :
    removeSession (b.as r) (r.new s) o = ((removeSession b s o).1.as r, (removeSession b s o).2) := by
  unfold removeSession
  have h : (b.as r).bySession (r.new s) = b.bySession s := Renaming.tab_new r _ _
  have h' : (b.as r).sessions (r.new s) = (b.sessions s).map r.session := Renaming.tab_new r (fun s => (b.sessions s).map r.session) s
  rw [h']
  cases b.sessions s with
  | none => rfl
  | some d =>
    simp only [Option.map_some, h, removeLoop_as]
    cases removeLoop s b ((arrange o ((b.bySession s).getD []).keys).filterMap ((b.bySession s).getD []).get) with
    | ok b' =>
      refine Prod.ext ?_ rfl
      show State.mk _ _ (FMap.del (Renaming.tab r fun s => (b'.sessions s).map r.session) (r.new s)) _ (FMap.del (Renaming.tab r b'.bySession) (r.new s)) _ _ _ _ _ _ = _
      rw [Broker.del_as, Renaming.tab_del]
      rfl
    | err => rfl
    | panic => rfl

private theorem lookup_as (b : State) (o : List Str) (t : Str) : lookup w o (b.as r) t = lookup w o b t := by
  unfold lookup
  show (match b.byProc t with | some p => _ | none => _) = _
  cases b.byProc t with
  | none => rfl
  | some p =>
    show (if ((b.heap p).registrants.map r.new).isEmpty then _ else _) = _
    rw [List.isEmpty_map]
    rfl

private theorem getD_as (l : List Nat) (i : Nat) (h : i < l.length) : (l.map r.new).getD i 0 = r.new (l.getD i 0) := by
  simp [List.getD_eq_getElem?_getD, List.getElem?_map, List.getElem?_eq_getElem h]

private theorem pick_as (g : Reg) (rnd : Nat) : pick (g.as r) rnd = (pick g rnd).map fun x => (r.new x.1, x.2) := by
  unfold pick
  have hl : (g.as r).callees.length = g.callees.length := List.length_map ..
  have hc : (g.as r).callees = g.callees.map r.new := rfl
  simp only [hl]
  show (if 1 < g.callees.length then (if g.policy = invokeFirst then _ else if g.policy = invokeLast then _ else if g.policy = invokeRoundRobin then _ else if g.policy = invokeRandom then _ else _) else _) = _
  split
  · rename_i hlen
    split
    · rw [hc, getD_as r _ _ (by omega)]; rfl
    · split
      · rw [hc, getD_as r _ _ (by omega)]; rfl
      · split
        · rw [hc, getD_as r]
          · rfl
          · show (if g.callees.length ≤ g.nextCallee then 0 else g.nextCallee) < _
            split <;> omega
        · split
          · rw [hc, getD_as r _ _ (Nat.mod_lt _ (by omega))]; rfl
          · rw [hc, getD_as r _ _ (by omega)]; rfl
  · rw [hc]
    cases g.callees <;> rfl

private theorem yield_as (b : State) (q : Nat) (o : GoMap) (a : GoSlice) (k : GoMap) (bin : Bin) :
    yield (b.as r) q o a k bin = ((yield b q o a k bin).1.as r, (yield b q o a k bin).2.map fun x => (r.msg x.1, r.new x.2)) := by
  unfold yield
  have h : (b.as r).pending.get q = (b.pending.get q).map (Pending.as r) := get_as r ..
  rw [h]
  cases b.pending.get q with
  | none => rfl
  | some p =>
    have h' : (b.as r).sessions (r.new p.callerID) = (b.sessions p.callerID).map r.session :=
      Renaming.tab_new r (fun s => (b.sessions s).map r.session) _
    have hd : (b.as r).pending.del q = (b.pending.del q).map fun x => (x.1, x.2.as r) := del_as' r ..
    have e : (p.as r).callerID = r.new p.callerID := rfl
    have e' : (p.as r).receiveProgress = p.receiveProgress := rfl
    have e'' : (p.as r).requestID = p.requestID := rfl
    simp only [Option.map_some, e, e', e'', h', hd]
    cases b.sessions p.callerID with
    | none => cases (p.receiveProgress && o.flag optProgress) <;> rfl
    | some c =>
      simp only [Option.map_some, Renaming.session]
      cases (p.receiveProgress && o.flag optProgress) <;> cases (bin.binary && c.static) <;> rfl

private theorem register_as (b : State) (s q : Nat) (o : GoMap) (t : Str) :
    register (b.as r) (r.new s) q o t = ((register b s q o t).1.as r, (register b s q o t).2.map fun x => (r.msg x.1, r.new x.2)) := by
  unfold register
  have h : (b.as r).bySession (r.new s) = b.bySession s := Renaming.tab_new r _ _
  rw [h]
  cases b.bySession s with
  | none => rfl
  | some m =>
    show (match b.byProc t with | some p => _ | none => _) = _
    cases b.byProc t with
    | some p =>
      simp only
      show (if (b.heap p).policy = [] ∨ (b.heap p).policy = invokeSingle ∨ (b.heap p).policy ≠ o.text optInvoke then _ else _) = _
      split
      · rfl
      · have e : ({ (b.as r).heap p with
              registrants := if ((b.as r).heap p).registrants.contains (r.new s) then ((b.as r).heap p).registrants else ((b.as r).heap p).registrants ++ [r.new s]
              callees := ((b.as r).heap p).callees ++ [r.new s] } : Reg) =
            Reg.as r { b.heap p with
              registrants := if (b.heap p).registrants.contains s then (b.heap p).registrants else (b.heap p).registrants ++ [s]
              callees := (b.heap p).callees ++ [s] } := by
          show Reg.mk _ _ (if ((b.heap p).registrants.map r.new).contains (r.new s) then (b.heap p).registrants.map r.new else (b.heap p).registrants.map r.new ++ [r.new s]) _ _
            ((b.heap p).callees.map r.new ++ [r.new s]) _ = _
          rw [Renaming.contains_map]
          unfold Reg.as
          congr 1
          · split <;> simp
          · simp
        rw [e]
        refine Prod.ext ?_ rfl
        show State.mk (hset (fun a => (b.heap a).as r) _ _) _ _ _ (FMap.set (Renaming.tab r b.bySession) (r.new s) _) _ _ _ _ _ _ = _
        rw [hset_as, Renaming.tab_set]
        rfl
    | none =>
      refine Prod.ext ?_ rfl
      show State.mk (hset (fun a => (b.heap a).as r) _ (Reg.as r ⟨_, t, [s], _, _, [s], _⟩)) _ _ _ (FMap.set (Renaming.tab r b.bySession) (r.new s) _) _ _ _ _ _ _ = _
      rw [hset_as, Renaming.tab_set]
      rfl

private theorem unregister_as (b : State) (s q i : Nat) :
    unregister (b.as r) (r.new s) q i = ((unregister b s q i).1.as r, (unregister b s q i).2.map fun x => (r.msg x.1, r.new x.2)) := by
  unfold unregister
  have h : (b.as r).bySession (r.new s) = b.bySession s := Renaming.tab_new r _ _
  rw [h]
  cases hb : b.bySession s with
  | none => rfl
  | some m =>
    simp only
    split
    · rfl
    · cases m.get i with
      | none => rfl
      | some p =>
        have e : (b.as r).heap p = (b.heap p).as r := rfl
        have h1 : ({ (b.heap p).as r with registrants := ((b.heap p).as r).registrants.filter (· ≠ r.new s) } : Reg) =
            Reg.as r { b.heap p with registrants := (b.heap p).registrants.filter (· ≠ s) } := by
          show Reg.mk _ _ _ _ _ _ _ = Reg.mk _ _ _ _ _ _ _
          congr 1
          exact Renaming.filter_ne r s (b.heap p).registrants
        have h2 : (List.filter (fun x => decide (x ≠ r.new s)) ((b.heap p).as r).registrants).isEmpty = (List.filter (fun x => decide (x ≠ s)) (b.heap p).registrants).isEmpty :=
          (congrArg List.isEmpty (Renaming.filter_ne r s (b.heap p).registrants)).trans (List.isEmpty_map ..)
        simp only [e, h2]
        rw [h1]
        simp only [State.as, hset_as, Renaming.tab_set]
        split <;> rfl

private theorem error_as (b : State) (t q : Nat) (d : GoMap) (u : Str) (a : GoSlice) (k : GoMap) :
    error (b.as r) t q d u a k = ((error b t q d u a k).1.as r, (error b t q d u a k).2.map fun x => (r.msg x.1, r.new x.2)) := by
  unfold error
  split
  · rfl
  · have h : (b.as r).pending.get q = (b.pending.get q).map (Pending.as r) := get_as r ..
    have hd : (b.as r).pending.del q = (b.pending.del q).map fun x => (x.1, x.2.as r) := del_as' r ..
    rw [h]
    cases b.pending.get q with
    | none => rfl
    | some p =>
      simp only [Option.map_some, hd]
      rfl

private theorem details_as (c : Option SessionDetails) (s : Nat) (t : Str) (p q : Bool) :
    invocationDetails (c.map r.session) (r.new s) t p q = r.under "caller" (invocationDetails c s t p q) := by
  cases c <;> cases p <;> cases q <;> rfl

private theorem call_as (b : State) (s q : Nat) (o : GoMap) (t : Str) (a : GoSlice) (k : GoMap) (bin : Bin) (wo : List Str) (rnd : Nat) :
    call w (b.as r) (r.new s) q o t a k bin wo rnd =
      ((call w b s q o t a k bin wo rnd).1.as r, (call w b s q o t a k bin wo rnd).2.map fun x => (r.msg x.1, r.new x.2)) := by
  unfold call
  rw [lookup_as]
  cases lookup w wo b t with
  | none => rfl
  | some p =>
    have e : (b.as r).heap p = (b.heap p).as r := rfl
    have e' : ((b.heap p).as r).registrants.isEmpty = (b.heap p).registrants.isEmpty := List.isEmpty_map ..
    simp only [e, e', pick_as]
    split
    · rfl
    · cases pick (b.heap p) rnd with
      | err => rfl
      | panic => rfl
      | ok x =>
        obtain ⟨callee, nc⟩ := x
        have hi : (b.as r).invByCall (r.new s, q) = b.invByCall (s, q) := by
          show b.invByCall (r.old (r.new s), q) = _
          rw [r.old_new]
        have hs : ∀ s, (b.as r).sessions (r.new s) = (b.sessions s).map r.session := fun s =>
          Renaming.tab_new r (fun s => (b.sessions s).map r.session) s
        have hd : (b.as r).details = b.details := rfl
        have hg : (b.as r).idGen = b.idGen := rfl
        simp only [Res.map_ok, hi, hs, hd, hg, Option.isNone_map]
        generalize o.flag optReceiveProgress = rp
        generalize o.flag optProgress = pr
        generalize b.invByCall (s, q) = old
        have h1 : hset (b.as r).heap p { (b.heap p).as r with nextCallee := nc } = fun a => (hset b.heap p { b.heap p with nextCallee := nc } a).as r :=
          hset_as r b.heap p { b.heap p with nextCallee := nc }
        have h2 : ∀ inv, (b.as r).pending.set inv ⟨q, r.new s, r.new callee, pr, rp⟩ = (b.pending.set inv ⟨q, s, callee, pr, rp⟩).map fun x => (x.1, x.2.as r) :=
          fun inv => set_as' r b.pending inv ⟨q, s, callee, pr, rp⟩
        have h3 : ∀ inv, (b.as r).invByCall.set (r.new s, q) inv = fun x => b.invByCall.set (s, q) inv (r.old x.1, x.2) := fun inv => inv_as r b.invByCall s q inv
        have hc : (if b.details = true then (b.sessions s).map r.session else none) = (if b.details = true then b.sessions s else none).map r.session := by
          cases b.details <;> rfl
        simp only [h1, h2, h3, hc, details_as]
        generalize hf : (old.isNone || !pr) = fresh
        split
        · cases fresh <;> rfl
        · cases b.sessions callee with
          | none => cases fresh <;> rfl
          | some c =>
            simp only [Option.map_some]
            have hcs : (r.session c).static = c.static := rfl
            rw [hcs]
            split
            · have hu := Renaming.under_dset r "caller" (str "x_payload_serializer") (.u64 bin.serializer) (by decide)
                (invocationDetails (if b.details = true then b.sessions s else none) s t pr rp)
              refine Prod.ext (by cases fresh <;> rfl) ?_
              show Res.ok (Msg.invocation _ _ (some (dset (r.under "caller" _) _ _)) _ _ _, _) = _
              rw [← hu]
              rfl
            · cases fresh <;> rfl

private theorem step_as (b : State) (op : Op) : step w (b.as r) (r.dealerOp op) = ((step w b op).1.as r, (step w b op).2.map r.dealerOut) := by
  cases op with
  | add d =>
    simp only [Renaming.dealerOp, step, addSession_as]
    cases (addSession b d).2 <;> rfl
  | remove s o =>
    simp only [Renaming.dealerOp, step, removeSession_as]
    cases (removeSession b s o).2 <;> rfl
  | has t =>
    simp only [Renaming.dealerOp, step, hasProcedure]
    refine Prod.ext rfl ?_
    show Res.ok (Out.bool (match b.byProc t with | none => false | some a => !((b.heap a).registrants.map r.new).isEmpty)) = _
    cases b.byProc t with
    | none => rfl
    | some a => simp only [List.isEmpty_map]; rfl
  | disclose on => rfl
  | receive s m order rnd =>
    cases m with
    | call q o t a k bin =>
      simp only [Renaming.dealerOp, Renaming.msg, step, receive, call_as]
      cases (call w b s q o t a k bin order rnd).2 <;> rfl
    | yield q o a k bin =>
      simp only [Renaming.dealerOp, Renaming.msg, step, receive, yield_as]
      cases (yield b q o a k bin).2 <;> rfl
    | register q o t =>
      simp only [Renaming.dealerOp, Renaming.msg, step, receive, register_as]
      cases (register b s q o t).2 <;> rfl
    | unregister q i =>
      simp only [Renaming.dealerOp, Renaming.msg, step, receive, unregister_as]
      cases (unregister b s q i).2 <;> rfl
    | error t q d u a k =>
      simp only [Renaming.dealerOp, Renaming.msg, step, receive, error_as]
      cases (error b t q d u a k).2 <;> rfl
    | _ => rfl

end Dealer

namespace System
open Wamp

private def bEvent (e : Broker.Event) : Broker.Event := ⟨r.brokerOp e.op, e.res.map r.brokerOut⟩
private def dEvent (e : Dealer.Event) : Dealer.Event := ⟨r.dealerOp e.op, e.res.map r.dealerOut⟩

/-- The system with the new IDs. -/
private def Sys.as (x : Sys) : Sys where
  broker := x.broker.as r
  dealer := x.dealer.as r
  client := Renaming.tab r x.client
  up := Renaming.tab r fun s => (x.up s).map r.msg
  down := Renaming.tab r fun s => (x.down s).map r.msg
  sent := Renaming.tab r fun s => (x.sent s).map r.msg
  joined := x.joined.map r.new
  bh := x.bh.map (bEvent r)
  dh := x.dh.map (dEvent r)

private def Log.as (l : Log) : Log := ⟨l.sys.as r, Renaming.tab r fun s => (l.got s).map r.msg⟩

private theorem tab_map (m : Nat → List Msg) (s : Nat) (l : List Msg) :
    upd (Renaming.tab r fun s => (m s).map r.msg) (r.new s) (l.map r.msg) = Renaming.tab r fun x => (upd m s l x).map r.msg := by
  rw [Renaming.tab_upd]
  congr 1
  funext x
  simp only [upd]
  split <;> rfl

private theorem tab_map_new (m : Nat → List Msg) (s : Nat) : (Renaming.tab r fun s => (m s).map r.msg) (r.new s) = (m s).map r.msg :=
  Renaming.tab_new r (fun s => (m s).map r.msg) s

private theorem send_as (m : Msg) (data : Str) (s : Session.State) :
    (Session.send (.ok data) (r.msg m)).run s = (Session.send (.ok data) m).run s := by
  cases m <;> rfl

private theorem recv_as (m : Msg) (s : Session.State) :
    ((Session.recv (r.msg m)).run s).1 = ((Session.recv m).run s).1 := by
  cases m with
  | event i n d a k => simp only [Renaming.msg, Session.recv, Session.Prog.run]; cases s .subscriptions i <;> rfl
  | invocation i g d a k b => simp only [Renaming.msg, Session.recv, Session.Prog.run]; cases s .registrations g <;> rfl
  | _ => rfl

private theorem brokerOut_as (x : Res Broker.Out) :
    brokerOut (x.map r.brokerOut) = (brokerOut x).map fun p => (r.new p.1, r.msg p.2) := by
  cases x with
  | err => rfl
  | panic => rfl
  | ok o =>
    cases o with
    | unit => rfl
    | bool b => rfl
    | msg m s => rfl
    | pub p =>
      obtain ⟨e, rs, a⟩ := p
      cases e <;> cases a <;> simp [brokerOut, Renaming.brokerOut]

private theorem dealerOut_as (x : Res Dealer.Out) :
    dealerOut (x.map r.dealerOut) = (dealerOut x).map fun p => (r.new p.1, r.msg p.2) := by
  cases x with
  | err => rfl
  | panic => rfl
  | ok o => cases o <;> rfl

private theorem onBroker_as (x : Sys) (op : Broker.Op) : (x.as r).onBroker w (r.brokerOp op) = (x.onBroker w op).as r := by
  have h : Broker.step w (x.as r).broker (r.brokerOp op) = _ := Broker.step_as r x.broker op
  simp only [Sys.onBroker, h]
  rfl

private theorem onDealer_as (x : Sys) (op : Dealer.Op) : (x.as r).onDealer w (r.dealerOp op) = (x.onDealer w op).map (Sys.as r) := by
  have h : Dealer.step w (x.as r).dealer (r.dealerOp op) = _ := Dealer.step_as r x.dealer op
  simp only [Sys.onDealer, h]
  cases e : (Dealer.step w x.dealer op).2 <;> rfl

private theorem post_as (x : Sys) (out : List (Nat × Msg)) :
    (x.as r).post (out.map fun p => (r.new p.1, r.msg p.2)) = (x.post out).as r := by
  have h : ∀ s, messagesFor s (out.map fun p => (r.new p.1, r.msg p.2)) = (messagesFor (r.old s) out).map r.msg := by
    intro s
    unfold messagesFor
    rw [List.filter_map, List.map_map, List.map_map]
    have : ∀ p : Nat × Msg, ((fun p : Nat × Msg => decide (p.1 = s)) ∘ fun p : Nat × Msg => (r.new p.1, r.msg p.2)) p = decide (p.1 = r.old s) := by
      intro p
      simp only [Function.comp_def, decide_eq_decide]
      exact ⟨fun e => ((Renaming.old_eq r).2 e.symm).symm, fun e => ((Renaming.old_eq r).1 e.symm).symm⟩
    rw [List.filter_congr (fun p _ => this p)]
    rfl
  have : (fun s => (x.as r).down s ++ messagesFor s (out.map fun p => (r.new p.1, r.msg p.2))) = Renaming.tab r fun s => (x.down s ++ messagesFor s out).map r.msg := by
    funext s
    rw [h]
    show (x.down (r.old s)).map r.msg ++ _ = (x.down (r.old s) ++ messagesFor (r.old s) out).map r.msg
    rw [List.map_append]
  simp only [Sys.post, this]
  rfl

private theorem handle_as (x : Sys) (s : Nat) (m : Msg) (wo : List Str) (so : List Nat) (rnd : Nat) :
    (x.as r).handle w (r.new s) (r.msg m) wo (so.map r.new) rnd = (x.handle w s m wo so rnd).map (Sys.as r) := by
  have hb : ∀ op : Broker.Op, ((x.as r).onBroker w (r.brokerOp op)).post (brokerOut (Broker.step w (x.as r).broker (r.brokerOp op)).2) =
      ((x.onBroker w op).post (brokerOut (Broker.step w x.broker op).2)).as r := by
    intro op
    have h : Broker.step w (x.as r).broker (r.brokerOp op) = _ := Broker.step_as r x.broker op
    rw [h, onBroker_as, brokerOut_as, post_as]
  have hd : ∀ op : Dealer.Op, (((x.as r).onDealer w (r.dealerOp op)).map fun y => y.post (dealerOut (Dealer.step w (x.as r).dealer (r.dealerOp op)).2)) =
      ((x.onDealer w op).map fun y => y.post (dealerOut (Dealer.step w x.dealer op).2)).map (Sys.as r) := by
    intro op
    have h : Dealer.step w (x.as r).dealer (r.dealerOp op) = _ := Dealer.step_as r x.dealer op
    rw [h, onDealer_as, dealerOut_as, Option.map_map, Option.map_map]
    cases x.onDealer w op with
    | none => rfl
    | some y => exact congrArg some (post_as r y _)
  cases m with
  | publish q o t a k => exact congrArg some (hb (.publish s q o t a k wo so))
  | subscribe q o t => exact congrArg some (hb (.receive s (.subscribe q o t)))
  | unsubscribe q i => exact congrArg some (hb (.receive s (.unsubscribe q i)))
  | call q o p a k bin => exact hd (.receive s (.call q o p a k bin) wo rnd)
  | yield q o a k bin => exact hd (.receive s (.yield q o a k bin) wo rnd)
  | register q o p => exact hd (.receive s (.register q o p) wo rnd)
  | unregister q i => exact hd (.receive s (.unregister q i) wo rnd)
  | error t q d u a k => exact hd (.receive s (.error t q d u a k) wo rnd)
  | _ => rfl

private def action : Action → Action
  | .join d => .join (r.session d)
  | .leave s o o' => .leave (r.new s) o o'
  | .disclose p c => .disclose p c
  | .send s data m => .send (r.new s) data (r.msg m)
  | .route s wo so rnd => .route (r.new s) wo (so.map r.new) rnd
  | .deliver s => .deliver (r.new s)

private theorem act_as (x : Sys) (a : Action) : (x.as r).act w (action r a) = (x.act w a).map (Sys.as r) := by
  cases a with
  | join d =>
    have h : ((r.session d).id ∈ (x.as r).joined) ↔ d.id ∈ x.joined := Renaming.mem_map r
    simp only [action, Sys.act]
    by_cases hj : d.id ∈ x.joined
    · rw [if_pos hj, if_pos (h.2 hj)]; rfl
    · rw [if_neg hj, if_neg (fun c => hj (h.1 c))]
      exact (congrArg (fun y => Sys.onDealer w y (.add (r.session d))) (onBroker_as r ({ x with joined := d.id :: x.joined } : Sys) (.add d))).trans
        (onDealer_as r _ (.add d))
  | leave s o o' =>
    exact (congrArg (fun y => Sys.onDealer w y (.remove (r.new s) o')) (onBroker_as r x (.remove s o))).trans (onDealer_as r _ (.remove s o'))
  | disclose p c =>
    exact (congrArg (fun y => Sys.onDealer w y (.disclose c)) (onBroker_as r x (.disclose p))).trans (onDealer_as r _ (.disclose c))
  | send s data m =>
    simp only [action, Sys.act]
    rw [show (x.as r).client (r.new s) = x.client s from Renaming.tab_new r _ _, send_as]
    rcases h : (Session.send (.ok data) m).run (x.client s) with ⟨c, t⟩
    cases t with
    | err => rfl
    | panic => rfl
    | ok b =>
      have hj : (r.new s ∈ (x.as r).joined) ↔ s ∈ x.joined := Renaming.mem_map r
      simp only
      by_cases hs : s ∈ x.joined
      · rw [if_pos hs, if_pos (hj.2 hs)]
        have e1 : (x.as r).up (r.new s) ++ [r.msg m] = (x.up s ++ [m]).map r.msg := by
          rw [show (x.as r).up (r.new s) = (x.up s).map r.msg from tab_map_new r x.up s]
          simp
        have e2 : r.msg m :: (x.as r).sent (r.new s) = (m :: x.sent s).map r.msg := by
          rw [show (x.as r).sent (r.new s) = (x.sent s).map r.msg from tab_map_new r x.sent s]
          simp
        rw [e1, e2]
        simp only [Option.map_some, Sys.as, tab_map]
        rw [Renaming.tab_upd r x.client]
      · rw [if_neg hs, if_neg (fun c => hs (hj.1 c))]; rfl
  | route s wo so rnd =>
    simp only [action, Sys.act]
    rw [show (x.as r).up (r.new s) = (x.up s).map r.msg from tab_map_new r x.up s]
    cases h : x.up s with
    | nil => rfl
    | cons m rest =>
      refine Eq.trans ?_ (handle_as r ({ x with up := upd x.up s rest } : Sys) s m wo so rnd)
      simp only [List.map_cons, Sys.as, tab_map]
  | deliver s =>
    simp only [action, Sys.act]
    rw [show (x.as r).down (r.new s) = (x.down s).map r.msg from tab_map_new r x.down s]
    cases h : x.down s with
    | nil => rfl
    | cons m rest =>
      simp only [List.map_cons, Option.map_some]
      rw [show (x.as r).client (r.new s) = x.client s from Renaming.tab_new r _ _, recv_as]
      simp only [Sys.as, tab_map]
      rw [Renaming.tab_upd r x.client]

private theorem move_as (F : Nat → Bool) (l : Log) (v : Move) : (l.as r).move w (fun s => F (r.old s)) (r.move v) = (l.move w F v).map (Log.as r) := by
  have hl : ∀ a : Action, (l.as r).act w (action r a) = (l.act w a).map (Log.as r) := by
    intro a
    have h := act_as (w := w) r l.sys a
    simp only [Log.act]
    show (Sys.act w (l.sys.as r) _).map _ = _
    rw [h, Option.map_map, Option.map_map]
    cases l.sys.act w a with
    | none => rfl
    | some y =>
      refine congrArg some ?_
      cases a with
      | deliver s =>
        show Log.mk _ (upd (Renaming.tab r fun s => (l.got s).map r.msg) (r.new s) ((Renaming.tab r fun s => (l.got s).map r.msg) (r.new s) ++ ((Renaming.tab r fun s => (l.sys.down s).map r.msg) (r.new s)).take 1)) = _
        rw [tab_map_new, tab_map_new, ← List.map_take, ← List.map_append, tab_map]
        rfl
      | _ => rfl
  cases v with
  | inject s m =>
    have hj : (r.new s ∈ (l.as r).sys.joined) ↔ s ∈ l.sys.joined := Renaming.mem_map r
    simp only [Renaming.move, Log.move, r.old_new, hj]
    split
    · have e1 : (l.as r).sys.up (r.new s) ++ [r.msg m] = (l.sys.up s ++ [m]).map r.msg := by
        rw [show (l.as r).sys.up (r.new s) = (l.sys.up s).map r.msg from tab_map_new r l.sys.up s]
        simp
      have e2 : r.msg m :: (l.as r).sys.sent (r.new s) = (m :: l.sys.sent s).map r.msg := by
        rw [show (l.as r).sys.sent (r.new s) = (l.sys.sent s).map r.msg from tab_map_new r l.sys.sent s]
        simp
      rw [e1, e2]
      simp only [Option.map_some, Log.as, Sys.as, tab_map]
    · rfl
  | act a =>
    cases a with
    | send s data m =>
      simp only [Renaming.move, Log.move, r.old_new]
      split
      · rfl
      · exact hl (.send s data m)
    | join d => exact hl (.join d)
    | leave s o o' => exact hl (.leave s o o')
    | disclose p c => exact hl (.disclose p c)
    | route s wo so rnd => exact hl (.route s wo so rnd)
    | deliver s => exact hl (.deliver s)

private theorem moves_as (F : Nat → Bool) (vs : List Move) (l : Log) :
    (l.as r).moves w (fun s => F (r.old s)) (vs.map r.move) = (l.moves w F vs).map (Log.as r) := by
  induction vs generalizing l with
  | nil => rfl
  | cons v vs ih =>
    simp only [List.map_cons, Log.moves, move_as]
    cases l.move w F v with
    | none => rfl
    | some l' => exact ih l'

/-- **C153.** A router and its clients, some of which need not use this library: if the sessions had got other IDs, the same would happen to
them under their new IDs.  What is possible stays possible, what is not does not become so; every client has sent and got the same messages
(with the new IDs of publishers and callers in them), and its `Session` is in the same state. -/
theorem C153_system (F : Nat → Bool) (vs : List Move) :
    match Log.new.moves w F vs, Log.new.moves w (fun s => F (r.old s)) (vs.map r.move) with
    | none, none => True
    | some l, some l' => ∀ s, l'.inbox (r.new s) = (l.inbox s).map r.msg ∧ l'.outbox (r.new s) = (l.outbox s).map r.msg ∧
        l'.sys.client (r.new s) = l.sys.client s
    | _, _ => False := by
  have h := moves_as (w := w) r F vs Log.new
  rw [show Log.as r Log.new = Log.new from rfl] at h
  rw [h]
  cases Log.new.moves w F vs with
  | none => trivial
  | some l =>
    intro s
    refine ⟨?_, ?_, Renaming.tab_new r _ _⟩
    · show (Renaming.tab r fun s => (l.got s).map r.msg) (r.new s) ++ (Renaming.tab r fun s => (l.sys.down s).map r.msg) (r.new s) = _
      rw [tab_map_new, tab_map_new, ← List.map_append]
      rfl
    · show ((Renaming.tab r fun s => (l.sys.sent s).map r.msg) (r.new s)).reverse = _
      rw [tab_map_new, ← List.map_reverse]
      rfl

end System

/-- **C153.** The same for the calls on a broker. -/
theorem Broker.C153_broker (ops : List Broker.Op) :
    Broker.replies w Broker.init (ops.map r.brokerOp) = (Broker.replies w Broker.init ops).map (Res.map r.brokerOut) := by
  have h : ∀ (ops : List Broker.Op) (b : Broker.State), Broker.replies w (b.as r) (ops.map r.brokerOp) = (Broker.replies w b ops).map (Res.map r.brokerOut) := by
    intro ops
    induction ops with
    | nil => exact fun _ => rfl
    | cons op ops ih =>
      intro b
      simp only [List.map_cons, Broker.replies, Broker.step_as, ih]
  exact h ops Broker.init

/-- **C153.** The same for the calls on a dealer. -/
theorem Dealer.C153_dealer (ops : List Dealer.Op) :
    Dealer.replies w Dealer.init (ops.map r.dealerOp) = (Dealer.replies w Dealer.init ops).map (Res.map r.dealerOut) := by
  have h : ∀ (ops : List Dealer.Op) (b : Dealer.State), Dealer.replies w (b.as r) (ops.map r.dealerOp) = (Dealer.replies w b ops).map (Res.map r.dealerOut) := by
    intro ops
    induction ops with
    | nil => exact fun _ => rfl
    | cons op ops ih =>
      intro b
      simp only [List.map_cons, Dealer.replies, Dealer.step_as, ih]
      cases (Dealer.step w b op).2 <;> rfl
  exact h ops Dealer.init

/-- Every two sessions may exchange their IDs. -/
def Renaming.exchange (a b : Nat) : Renaming where
  new s := if s = a then b else if s = b then a else s
  old s := if s = a then b else if s = b then a else s
  old_new s := by (repeat' split) <;> simp_all
  new_old s := by (repeat' split) <;> simp_all

/-- Sessions 1 and 7, which exchange their IDs: 7 offers a procedure, 1 calls it, and the callee is told who calls. -/
example : let vs : List System.Move :=
      [.act (.disclose true true), .act (.join ⟨1, [], [], [], [], false, none, none⟩), .act (.join ⟨7, [], [], [], [], false, none, none⟩),
       .inject 7 (.register 1 none (str "p")), .act (.route 7 [] [] 0), .inject 1 (.call 1 none (str "p") none none Bin.none), .act (.route 1 [] [] 0)]
    let r := Renaming.exchange 1 7
    ((System.Log.new.moves (fun _ _ => false) (fun _ => true) vs).map fun l => ((l.inbox 7).length, (l.inbox 1).length)) = some (2, 0) ∧
    ((System.Log.new.moves (fun _ _ => false) (fun _ => true) (vs.map r.move)).map fun l => ((l.inbox 7).length, (l.inbox 1).length)) = some (0, 2) := by
  decide +kernel

/-- The ID of the caller in an INVOCATION is replaced. -/
example : (Renaming.exchange 1 7).msg (.invocation 1 1 (some [(str "caller", .u64 1)]) none none Bin.none) =
    .invocation 1 1 (some [(str "caller", .u64 7)]) none none Bin.none := rfl

end Wamp
