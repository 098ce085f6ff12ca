import Verif.Spec.Session
/-!
# Concurrent calls on a client session that look as if they were made one after the other
-/
namespace Wamp.Session

/-- The requests a call can concern, by kind. -/
inductive Kind where
  | call | register | unregister | invocation | publish | subscribe | unsubscribe
  deriving DecidableEq

/-- The request, answer or ERROR of which a message is: its kind and its ID.  An ERROR that is sent answers an INVOCATION. -/
def Op.about : Op → Option (Kind × Nat)
  | .send _ (.error _ r _ _ _ _) => some (.invocation, r)
  | .recv (.error t r _ _ _ _) =>
    match t with
    | 48 => some (.call, r)
    | 64 => some (.register, r)
    | 66 => some (.unregister, r)
    | 32 => some (.subscribe, r)
    | 34 => some (.unsubscribe, r)
    | 16 => some (.publish, r)
    | _ => none
  | .send _ m => ofMsg m
  | .recv m => ofMsg m
where
  /-- Messages other than ERROR. -/
  ofMsg : Msg → Option (Kind × Nat)
    | .call r _ _ _ _ _ => some (.call, r)
    | .result r _ _ _ _ => some (.call, r)
    | .register r _ _ => some (.register, r)
    | .registered r _ => some (.register, r)
    | .unregister r _ => some (.unregister, r)
    | .unregistered r => some (.unregister, r)
    | .invocation r _ _ _ _ _ => some (.invocation, r)
    | .yield r _ _ _ _ => some (.invocation, r)
    | .publish r _ _ _ _ => some (.publish, r)
    | .published r _ => some (.publish, r)
    | .subscribe r _ _ => some (.subscribe, r)
    | .subscribed r _ => some (.subscribe, r)
    | .unsubscribe r _ => some (.unsubscribe, r)
    | .unsubscribed r => some (.unsubscribe, r)
    | _ => none

/-- Call number `i` has returned `b`. -/
def Cfg.returned (c : Cfg) (i : Nat) (b : Bool) : Prop := ∃ th, c.calls[i]? = some th ∧ th.rest = .ret b

/-- An execution: everything that was the case so far, newest first. -/
inductive Exec : List Cfg → Prop where
  | init : Exec [⟨Session.init, []⟩]
  | step {c cs} (c') : Exec (c :: cs) → Step c c' → Exec (c' :: c :: cs)

/-- Calls that concern the same request do not overlap: at no time are two of them in progress. -/
def Apart (cs : List Cfg) : Prop :=
  ∀ c ∈ cs, ∀ (i j : Nat) (th th' : Thread), i ≠ j → c.calls[i]? = some th → c.calls[j]? = some th' → (∀ b, th.rest ≠ .ret b) → (∀ b, th'.rest ≠ .ret b) →
    th.op.about = none ∨ th.op.about ≠ th'.op.about

/-- The calls of an execution look as if they had been made one after the other, in the order `l` (newest first; numbers of calls, and what
they returned). -/
structure Looks (c : Cfg) (cs : List Cfg) (l : List (Nat × Event)) (s : State) : Prop where
  /-- one after the other, they return this and lead to `s` -/
  hist : Hist (l.map Prod.snd) s
  /-- no call occurs twice -/
  once : (l.map Prod.fst).Nodup
  /-- they are the calls of the execution -/
  same : ∀ i e, (i, e) ∈ l → ∃ th, c.calls[i]? = some th ∧ th.op = e.op
  /-- every call that has returned is there, and has returned the same -/
  all : ∀ i b, c.returned i b → ∃ e, (i, e) ∈ l ∧ e.ok = b
  /-- a call that had returned before another began precedes it -/
  order : ∀ c' ∈ c :: cs, ∀ i j b, c'.returned i b → c'.calls.length ≤ j → j ∈ l.map Prod.fst →
    ∃ l1 l2, l = l1 ++ l2 ∧ j ∈ l1.map Prod.fst ∧ i ∈ l2.map Prod.fst
  /-- when all calls have returned, the tables are the same -/
  final : (∀ i, i < c.calls.length → ∃ b, c.returned i b) → c.tabs = s

end Wamp.Session
