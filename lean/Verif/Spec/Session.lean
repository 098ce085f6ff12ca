import Verif.Model.Session
/-!
# Histories of a client session and what is outstanding in them
-/
namespace Wamp.Session

/-- A finished call and whether it succeeded. -/
structure Event where
  op : Op
  ok : Bool

/-- `Hist h s`: `h` (newest first) are the calls made so far, one after the other, on a new session, now in state `s`. -/
inductive Hist : List Event → State → Prop where
  | new : Hist [] init
  | step {h s} (op : Op) : Hist h s → Hist (⟨op, (op.prog.run s).2⟩ :: h) (op.prog.run s).1

/-- The session accepts (returns) this message when it is received now. -/
def Accepts (s : State) (m : Msg) : Prop := ((recv m).run s).2 = .ok m

/-- A `start` event happened and since then no `stop` event. -/
def since (start stop : Event → Bool) : List Event → Bool
  | [] => false
  | e :: h => start e || (!stop e && since start stop h)

/-! ### Requests sent -/

/-- A CALL with this request ID was sent. -/
def callSent (k : Nat) : Event → Bool
  | ⟨.send _ (.call r _ _ _ _ _), true⟩ => r == k
  | _ => false
/-- A REGISTER with this request ID was sent. -/
def registerSent (k : Nat) : Event → Bool
  | ⟨.send _ (.register r _ _), true⟩ => r == k
  | _ => false
/-- A PUBLISH asking for acknowledgement, with this request ID, was sent. -/
def publishSent (k : Nat) : Event → Bool
  | ⟨.send _ (.publish r o _ _ _), true⟩ => r == k && o.flag (str "acknowledge")
  | _ => false
/-- A SUBSCRIBE with this request ID was sent. -/
def subscribeSent (k : Nat) : Event → Bool
  | ⟨.send _ (.subscribe r _ _), true⟩ => r == k
  | _ => false
/-- An UNREGISTER with this request ID was sent. -/
def unregisterSent (k : Nat) : Event → Bool
  | ⟨.send _ (.unregister r _), true⟩ => r == k
  | _ => false
/-- An UNSUBSCRIBE with this request ID was sent. -/
def unsubscribeSent (k : Nat) : Event → Bool
  | ⟨.send _ (.unsubscribe r _), true⟩ => r == k
  | _ => false

/-! ### Answers accepted -/

/-- An ERROR for this kind of request (number `t`) and request ID was accepted. -/
def errorGot (t k : Nat) : Event → Bool
  | ⟨.recv (.error t' r _ _ _ _), true⟩ => t' == t && r == k
  | _ => false
/-- A final (not progressive) RESULT was accepted. -/
def resultGot (k : Nat) : Event → Bool
  | ⟨.recv (.result r d _ _ _), true⟩ => r == k && !d.flag (str "progress")
  | _ => false
/-- A REGISTERED for this request ID was accepted. -/
def registeredGot (k : Nat) : Event → Bool
  | ⟨.recv (.registered r _), true⟩ => r == k
  | _ => false
/-- A PUBLISHED for this request ID was accepted. -/
def publishedGot (k : Nat) : Event → Bool
  | ⟨.recv (.published r _), true⟩ => r == k
  | _ => false
/-- A SUBSCRIBED for this request ID was accepted. -/
def subscribedGot (k : Nat) : Event → Bool
  | ⟨.recv (.subscribed r _), true⟩ => r == k
  | _ => false

/-- CALL was settled: final RESULT or ERROR (48 = CALL). -/
def callSettled (k : Nat) (e : Event) : Bool := resultGot k e || errorGot 48 k e
/-- REGISTER was settled: REGISTERED or ERROR (64 = REGISTER). -/
def registerSettled (k : Nat) (e : Event) : Bool := registeredGot k e || errorGot 64 k e
/-- PUBLISH was settled: PUBLISHED or ERROR (16 = PUBLISH). -/
def publishSettled (k : Nat) (e : Event) : Bool := publishedGot k e || errorGot 16 k e
/-- SUBSCRIBE was settled: SUBSCRIBED or ERROR (32 = SUBSCRIBE). -/
def subscribeSettled (k : Nat) (e : Event) : Bool := subscribedGot k e || errorGot 32 k e

/-! ### Registrations and subscriptions -/

/-- The registration that the last UNREGISTER with request ID `r` named, unless an ERROR answered it. -/
def unregisterAsked (r : Nat) : List Event → Option Nat
  | [] => none
  | ⟨.send _ (.unregister r' g), true⟩ :: h => if r' = r then some g else unregisterAsked r h
  | ⟨.recv (.error 66 r' _ _ _ _), true⟩ :: h => if r' = r then none else unregisterAsked r h
  | _ :: h => unregisterAsked r h

/-- The subscription that the last UNSUBSCRIBE with request ID `r` named, unless an ERROR answered it. -/
def unsubscribeAsked (r : Nat) : List Event → Option Nat
  | [] => none
  | ⟨.send _ (.unsubscribe r' g), true⟩ :: h => if r' = r then some g else unsubscribeAsked r h
  | ⟨.recv (.error 34 r' _ _ _ _), true⟩ :: h => if r' = r then none else unsubscribeAsked r h
  | _ :: h => unsubscribeAsked r h

/-- The registration was confirmed by an accepted REGISTERED, and since then no accepted UNREGISTERED answered an UNREGISTER
that named it. -/
def registered (g : Nat) : List Event → Bool
  | [] => false
  | ⟨.recv (.registered _ g'), true⟩ :: h => g' == g || registered g h
  | ⟨.recv (.unregistered r), true⟩ :: h => unregisterAsked r h != some g && registered g h
  | _ :: h => registered g h

/-- The subscription was confirmed by an accepted SUBSCRIBED, and since then no accepted UNSUBSCRIBED answered an UNSUBSCRIBE
that named it. -/
def subscribed (g : Nat) : List Event → Bool
  | [] => false
  | ⟨.recv (.subscribed _ g'), true⟩ :: h => g' == g || subscribed g h
  | ⟨.recv (.unsubscribed r), true⟩ :: h => unsubscribeAsked r h != some g && subscribed g h
  | _ :: h => subscribed g h

/-! ### Message families -/

/-- Groups of related messages. -/
inductive Family where
  | call | publish | registration | subscription | other
  deriving DecidableEq

/-- The group of an ERROR, by the kind of request it answers. -/
def errorFamily : Nat → Family
  | 48 => .call
  | 16 => .publish
  | 64 => .registration
  | 66 => .registration
  | 68 => .registration
  | 32 => .subscription
  | 34 => .subscription
  | _ => .other

/-- The group of a message. -/
def family : Msg → Family
  | .call .. => .call | .result .. => .call
  | .publish .. => .publish | .published .. => .publish
  | .register .. => .registration | .registered .. => .registration | .unregister .. => .registration
  | .unregistered .. => .registration | .invocation .. => .registration | .yield .. => .registration
  | .subscribe .. => .subscription | .subscribed .. => .subscription | .unsubscribe .. => .subscription
  | .unsubscribed .. => .subscription | .event .. => .subscription
  | .error t _ _ _ _ _ => errorFamily t
  | _ => .other

/-- The message of a call. -/
def Op.msg : Op → Msg
  | .send _ m => m
  | .recv m => m

/-- The request a sent message makes: kind number and request ID. -/
def request : Msg → Option (Nat × Nat)
  | .call r _ _ _ _ _ => some (48, r)
  | .register r _ _ => some (64, r)
  | .unregister r _ => some (66, r)
  | .publish r _ _ _ _ => some (16, r)
  | .subscribe r _ _ => some (32, r)
  | .unsubscribe r _ => some (34, r)
  | _ => none

/-- The request a received message answers. -/
def answers : Msg → Option (Nat × Nat)
  | .result r _ _ _ _ => some (48, r)
  | .registered r _ => some (64, r)
  | .unregistered r => some (66, r)
  | .published r _ => some (16, r)
  | .subscribed r _ => some (32, r)
  | .unsubscribed r => some (34, r)
  | .error t r _ _ _ _ => some (t, r)
  | _ => none

/-! ### Concurrent calls -/

/-- The call has finished, and succeeded. -/
def Thread.succeeded (t : Thread) : Bool :=
  match t.rest with
  | .ret b => b
  | _ => false
/-- The call as an event of the kind used above. -/
def Thread.event (t : Thread) : Event := ⟨t.op, t.succeeded⟩
/-- The call was made (whether finished or not), and its message could be serialized: counts as sent. -/
def Thread.started (t : Thread) : Event :=
  ⟨t.op, match t.op with
    | .send (.ok _) _ => true
    | .send _ _ => false
    | .recv _ => true⟩

/-- A `ReceiveMessage` that has not returned. -/
def Thread.receiving (t : Thread) : Bool :=
  match t.op, t.rest with
  | .recv _, .ret _ => false
  | .recv _, _ => true
  | .send .., _ => false

/-- At most one `ReceiveMessage` is in progress. -/
def OneReader (c : Cfg) : Prop := (c.calls.filter Thread.receiving).length ≤ 1

/-- Configurations reachable when `ReceiveMessage` calls never overlap each other (`SendMessage` calls may overlap anything). -/
inductive ReachOneReader : Cfg → Prop where
  | init : ReachOneReader ⟨Session.init, []⟩
  | step (c c') : ReachOneReader c → Step c c' → OneReader c' → ReachOneReader c'

end Wamp.Session
