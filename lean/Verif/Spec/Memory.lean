import Verif.Spec.Broker
import Verif.Spec.Dealer
import Verif.Spec.Session
/-!
# What a broker, a dealer and a client session keep in their tables
-/
namespace Wamp

/-- The table `m` has entries for at least `n` different keys. -/
def Fills {K V : Type} (m : K → Option V) (n : Nat) : Prop := ∃ ks : List K, ks.Nodup ∧ ks.length = n ∧ ∀ k ∈ ks, (m k).isSome = true

namespace Broker

/-- Every entry of every table of the broker belongs to a session that is attached, or to a subscription in force, which it then holds
once only. -/
structure Accounted (h : List Event) (b : State) : Prop where
  /-- one entry for each attached session -/
  sessions : ∀ s, (b.sessions s).isSome = true → attached h s
  tables : ∀ s, (b.bySession s).isSome = true → attached h s
  /-- one entry in the table of a session for each of its subscriptions -/
  own : ∀ s m, b.bySession s = some m → m.keys.Nodup ∧ ∀ i ∈ m.keys, ∃ t, current h s t = some i
  /-- one entry for each topic or pattern with subscribers -/
  topics : ∀ t, (b.byTopic t).isSome = true → live h t
  prefixes : ∀ t, (b.tree.get t).isSome = true → live h t
  wildcards : ∀ t, (b.wc.get t).isSome = true → live h t
  /-- each subscriber of a topic once -/
  subscribers : ∀ t a, b.byTopic t = some a → (b.heap a).subscribers.Nodup ∧ ∀ s ∈ (b.heap a).subscribers, ∃ i, current h s t = some i

/-- Nothing is stored. -/
structure Empty (b : State) : Prop where
  sessions : ∀ s, b.sessions s = none
  tables : ∀ s, b.bySession s = none
  topics : ∀ t, b.byTopic t = none
  prefixes : ∀ t, b.tree.get t = none
  wildcards : ∀ t, b.wc.get t = none

end Broker

namespace Dealer

/-- What is accounted for in the tables of a dealer: the entries of sessions, of calls that wait for their answer, and of registrants. -/
structure Accounted (h : List Event) (b : State) : Prop where
  sessions : ∀ s, (b.sessions s).isSome = true → attached h s
  tables : ∀ s, (b.bySession s).isSome = true → attached h s
  /-- a pending invocation comes from a CALL that was passed on (or met an error) and no final answer to it was forwarded -/
  pending : ∀ i q, b.pending.get i = some q →
    (∃ e ∈ h, ∃ o, isCall q.callerID q.requestID o e ∧ (e.res = .err ∨ ∃ k, invoked q.callerID q.requestID i k e)) ∧
    ∀ e ∈ h, finalFor i e = false
  /-- an entry in the table of a session comes from one of its REGISTERs -/
  own : ∀ s m i, b.bySession s = some m → (m.get i).isSome = true → ∃ p, ∃ e ∈ h, registeredAs s p i e
  /-- a registrant of a procedure registered it, and neither unregistered nor left -/
  registrants : ∀ p a s, b.byProc p = some a → s ∈ (b.heap a).registrants → ∃ i, holds h s p i

/-- What is stored for procedure (or pattern) `p` is stored for those registered for it, and for each of them once only (but for the table of
prefix patterns). -/
structure AccountedFor (p : Str) (h : List Event) (b : State) : Prop where
  procedure : (b.byProc p).isSome = true → members h p ≠ []
  wildcard : (b.wc.get p).isSome = true → members h p ≠ []
  callees : ∀ a, b.byProc p = some a → (b.heap a).callees.Nodup ∧ ∀ s ∈ (b.heap a).callees, s ∈ members h p
  own : ∀ s m i a, b.bySession s = some m → m.get i = some a → (b.heap a).procedure = p → s ∈ members h p ∧ (regOf h p).map RegView.id = some i

end Dealer

namespace Session

/-- An INVOCATION with this request ID was accepted. -/
def invocationGot (k : Nat) : Event → Bool
  | ⟨.recv (.invocation r _ _ _ _ _), true⟩ => r == k
  | _ => false

/-- A final answer to the INVOCATION with this request ID was sent: a YIELD that is not progressive, or an ERROR. -/
def invocationDone (k : Nat) : Event → Bool
  | ⟨.send _ (.yield r o _ _ _), true⟩ => r == k && !o.flag (str "progress")
  | ⟨.send _ (.error _ r _ _ _ _), true⟩ => r == k
  | _ => false

/-- An UNREGISTER was settled: UNREGISTERED or ERROR (66 = UNREGISTER). -/
def unregisterSettled (k : Nat) (e : Event) : Bool :=
  errorGot 66 k e || match e with | ⟨.recv (.unregistered r), true⟩ => r == k | _ => false

/-- An UNSUBSCRIBE was settled: UNSUBSCRIBED or ERROR (34 = UNSUBSCRIBE). -/
def unsubscribeSettled (k : Nat) (e : Event) : Bool :=
  errorGot 34 k e || match e with | ⟨.recv (.unsubscribed r), true⟩ => r == k | _ => false

/-- Every entry of these tables belongs to a request that waits for its answer, to an INVOCATION that was not answered, or to a registration or
subscription in force. -/
structure Accounted (h : List Event) (s : State) : Prop where
  call : ∀ k, (s .call k).isSome = true → since (callSent k) (callSettled k) h = true
  register : ∀ k, (s .register k).isSome = true → since (registerSent k) (registerSettled k) h = true
  publish : ∀ k, (s .publish k).isSome = true → since (publishSent k) (publishSettled k) h = true
  invocation : ∀ k, (s .invocation k).isSome = true → since (invocationGot k) (invocationDone k) h = true
  registrations : ∀ g, (s .registrations g).isSome = true → registered g h = true
  subscriptions : ∀ g, (s .subscriptions g).isSome = true → subscribed g h = true

/-- Nothing is going on: every SUBSCRIBE, UNSUBSCRIBE, REGISTER and UNREGISTER was settled, and nothing is subscribed or registered. -/
def Idle (h : List Event) : Prop :=
  ∀ k, since (subscribeSent k) (subscribeSettled k) h = false ∧ since (unsubscribeSent k) (unsubscribeSettled k) h = false ∧
    since (registerSent k) (registerSettled k) h = false ∧ since (unregisterSent k) (unregisterSettled k) h = false ∧
    subscribed k h = false ∧ registered k h = false

end Session
end Wamp
