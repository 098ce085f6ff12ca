import Verif.Model.Broker
/-!
# Histories of a broker, and who is subscribed to what after one

Everything here is defined from the calls made and their results only.
-/
namespace Wamp.Broker

/-- A finished call and its result. -/
structure Event where
  op : Op
  res : Res Out

/-- `Hist w h b`: the calls `h` (newest first) were made one after the other on a new broker, which is now in state `b`. -/
inductive Hist (w : Str → Str → Bool) : List Event → State → Prop where
  | new : Hist w [] init
  | step {h b} (op : Op) : Hist w h b → Hist w (⟨op, (step w b op).2⟩ :: h) (step w b op).1

/-- The details of a session that was added and not removed since. -/
def session : List Event → Nat → Option SessionDetails
  | [], _ => none
  | ⟨.add d, .ok _⟩ :: h, s => if d.id = s then some d else session h s
  | ⟨.remove s' _, .ok _⟩ :: h, s => if s' = s then none else session h s
  | _ :: h, s => session h s

/-- The session was added and not removed since. -/
def attached (h : List Event) (s : Nat) : Prop := (session h s).isSome = true

/-- The ID under which session `s` is subscribed to `t`: `s` got it in answer to a SUBSCRIBE for `t`, and since then `s` neither
unsubscribed that ID nor was removed. -/
def current : List Event → Nat → Str → Option Nat
  | [], _, _ => none
  | ⟨.receive s' (.subscribe _ _ t'), .ok (.msg (.subscribed _ i) _)⟩ :: h, s, t =>
    if s' = s ∧ t' = t then some i else current h s t
  | ⟨.receive s' (.unsubscribe _ i), .ok _⟩ :: h, s, t =>
    if s' = s ∧ current h s t = some i then none else current h s t
  | ⟨.remove s' _, .ok _⟩ :: h, s, t => if s' = s then none else current h s t
  | _ :: h, s, t => current h s t

/-- Somebody is subscribed to `t`. -/
def live (h : List Event) (t : Str) : Prop := ∃ s i, current h s t = some i

/-- The `match` option of the first SUBSCRIBE that was answered with subscription ID `i`. -/
def policy : List Event → Nat → Option Str
  | [], _ => none
  | ⟨.receive _ (.subscribe _ o _), .ok (.msg (.subscribed _ i') _)⟩ :: h, i =>
    match policy h i with
    | some p => some p
    | none => if i' = i then some (o.text (str "match")) else none
  | _ :: h, i => policy h i

/-- Somebody is subscribed to `t`, and since the first of the present subscribers subscribed, nobody who was subscribed to `t`
unsubscribed or was removed. -/
def intact : List Event → Str → Prop
  | [], _ => False
  | ⟨.receive _ (.subscribe _ _ t'), .ok (.msg (.subscribed _ _) _)⟩ :: h, t => (t' = t ∧ ¬live h t) ∨ intact h t
  | ⟨.receive s (.unsubscribe _ i), .ok _⟩ :: h, t => current h s t ≠ some i ∧ intact h t
  | ⟨.remove s _, .ok _⟩ :: h, t => current h s t = none ∧ intact h t
  | _ :: h, t => intact h t

/-- `AutoDisclosePublisher` was last called with `true`. -/
def disclosed : List Event → Bool
  | [] => false
  | ⟨.disclose on, _⟩ :: _ => on
  | _ :: h => disclosed h

/-- `t` is currently in force as a pattern with this policy: it is intact, and its subscription was created with the policy. -/
def inForce (h : List Event) (t pol : Str) : Prop :=
  intact h t ∧ ∃ s i, current h s t = some i ∧ policy h i = some pol

/-- The subscribed topic or pattern `t` is the one a publication on `u` is delivered to: the topic itself if it has subscribers,
otherwise the longest prefix pattern in force, otherwise some wildcard pattern in force that matches. -/
def selects (w : Str → Str → Bool) (h : List Event) (u t : Str) : Prop :=
  (live h u ∧ t = u) ∨
  (¬live h u ∧ inForce h t (str "prefix") ∧ t <+: u ∧
    ∀ t', inForce h t' (str "prefix") → t' <+: u → t'.length ≤ t.length) ∨
  (¬live h u ∧ (∀ t', inForce h t' (str "prefix") → ¬t' <+: u) ∧ inForce h t (str "wildcard") ∧ w u t = true)


/-- The publication ID returned by a call, if any: that of the EVENT or else that of the PUBLISHED. -/
def pubID : Event → Option Nat
  | ⟨_, .ok (.pub ⟨some (.event _ n _ _ _), _, _⟩)⟩ => some n
  | ⟨_, .ok (.pub ⟨_, _, some (.published _ n, _)⟩)⟩ => some n
  | _ => none

/-- Session `s` received SUBSCRIBED with ID `i` in answer to a SUBSCRIBE for `t`. -/
def subscribedAs (s : Nat) (t : Str) (i : Nat) (e : Event) : Prop :=
  ∃ q o q' r, e = ⟨.receive s (.subscribe q o t), .ok (.msg (.subscribed q' i) r)⟩

/-- The call is a SUBSCRIBE by `s` for `t`. -/
def asksFor (s : Nat) (t : Str) (e : Event) : Prop := ∃ q o, e.op = .receive s (.subscribe q o t)

/-- Calls made one after the other (oldest first) on a broker, continuing a history. -/
def exec (w : Str → Str → Bool) : List Event × State → List Op → List Event × State
  | x, [] => x
  | x, op :: ops => exec w (⟨op, (step w x.2 op).2⟩ :: x.1, (step w x.2 op).1) ops

end Wamp.Broker
