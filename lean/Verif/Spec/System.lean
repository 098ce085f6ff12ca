import Verif.Spec.Session
import Verif.Spec.Broker
import Verif.Spec.Dealer
/-!
# A router and its clients

How the parts are meant to be used together: a router hands the messages of its sessions to a broker and a dealer, sends out what
they return, and every client checks what it sends and receives with its own `Session`.  The library has no such router; this is the
use its parts are written for.  Every client has a link to the router and one back, which deliver messages unchanged and in order.
Nothing is said about when anything happens: the actions below may come in any order.
-/
namespace Wamp.System

/-- The broker, the dealer, every client's `Session`, the messages under way to (`up`) and from (`down`) the router, the messages each
client has sent (newest first), the session IDs given out, and the calls made on broker and dealer (newest first). -/
structure Sys where
  broker : Broker.State
  dealer : Dealer.State
  client : Nat → Session.State
  up : Nat → List Msg
  down : Nat → List Msg
  sent : Nat → List Msg
  joined : List Nat
  bh : List Broker.Event
  dh : List Dealer.Event

/-- Nothing has happened. -/
def Sys.new : Sys := ⟨Broker.init, Dealer.init, fun _ => Session.init, fun _ => [], fun _ => [], fun _ => [], [], [], []⟩

/-- What can happen next. -/
inductive Action where
  /-- A session joins under an ID that was not used before. -/
  | join (d : SessionDetails)
  /-- The router removes a session from broker and dealer. -/
  | leave (s : Nat) (subOrder regOrder : List Nat)
  /-- The router switches disclosure. -/
  | disclose (publisher caller : Bool)
  /-- A client sends a message that its `Session` lets through. -/
  | send (s : Nat) (data : Str) (m : Msg)
  /-- The router takes the next message of a client. -/
  | route (s : Nat) (wcOrder : List Str) (subOrder : List Nat) (rnd : Nat)
  /-- A client takes the next message from the router. -/
  | deliver (s : Nat)

/-- A call on the broker. -/
def Sys.onBroker (w : Str → Str → Bool) (x : Sys) (op : Broker.Op) : Sys :=
  { x with broker := (Broker.step w x.broker op).1, bh := ⟨op, (Broker.step w x.broker op).2⟩ :: x.bh }

/-- A call on the dealer; not possible if it would panic. -/
def Sys.onDealer (w : Str → Str → Bool) (x : Sys) (op : Dealer.Op) : Option Sys :=
  match (Dealer.step w x.dealer op).2 with
  | .panic => none
  | r => some { x with dealer := (Dealer.step w x.dealer op).1, dh := ⟨op, r⟩ :: x.dh }

/-- What the router has to send after a call on the broker: recipients and messages. -/
def brokerOut : Res Broker.Out → List (Nat × Msg)
  | .ok (.msg m s) => [(s, m)]
  | .ok (.pub p) =>
    (match p.event with
     | some m => p.recipients.map fun s => (s, m)
     | none => []) ++
    (match p.ack with
     | some (m, s) => [(s, m)]
     | none => [])
  | _ => []

/-- What the router has to send after a call on the dealer. -/
def dealerOut : Res Dealer.Out → List (Nat × Msg)
  | .ok (.msg m s) => [(s, m)]
  | _ => []

/-- The messages for `s`. -/
def messagesFor (s : Nat) (out : List (Nat × Msg)) : List Msg := (out.filter fun p => p.1 = s).map fun p => p.2

/-- The router sends messages. -/
def Sys.post (x : Sys) (out : List (Nat × Msg)) : Sys := { x with down := fun s => x.down s ++ messagesFor s out }

/-- The router handles message `m` of `s`: SUBSCRIBE, UNSUBSCRIBE and PUBLISH go to the broker; CALL, YIELD, REGISTER, UNREGISTER and
ERROR to the dealer. -/
def Sys.handle (w : Str → Str → Bool) (x : Sys) (s : Nat) (m : Msg) (wcOrder : List Str) (subOrder : List Nat) (rnd : Nat) : Option Sys :=
  match m with
  | .publish q o t a k =>
    some ((x.onBroker w (.publish s q o t a k wcOrder subOrder)).post
      (brokerOut (Broker.step w x.broker (.publish s q o t a k wcOrder subOrder)).2))
  | .subscribe .. | .unsubscribe .. =>
    some ((x.onBroker w (.receive s m)).post (brokerOut (Broker.step w x.broker (.receive s m)).2))
  | .call .. | .yield .. | .register .. | .unregister .. | .error .. =>
    (x.onDealer w (.receive s m wcOrder rnd)).map fun y =>
      y.post (dealerOut (Dealer.step w x.dealer (.receive s m wcOrder rnd)).2)
  | _ => some x

/-- Replace the value at `s`. -/
def upd {α : Type} (f : Nat → α) (s : Nat) (v : α) : Nat → α := fun s' => if s' = s then v else f s'

/-- One action; `none` if it is not possible. -/
def Sys.act (w : Str → Str → Bool) (x : Sys) : Action → Option Sys
  | .join d =>
    if d.id ∈ x.joined then none
    else (({ x with joined := d.id :: x.joined } : Sys).onBroker w (.add d)).onDealer w (.add d)
  | .leave s o o' => (x.onBroker w (.remove s o)).onDealer w (.remove s o')
  | .disclose p c => (x.onBroker w (.disclose p)).onDealer w (.disclose c)
  | .send s data m =>
    match (Session.send (.ok data) m).run (x.client s) with
    | (c, .ok _) => if s ∈ x.joined then
        some { x with client := upd x.client s c, up := upd x.up s (x.up s ++ [m]), sent := upd x.sent s (m :: x.sent s) } else none
    | _ => none
  | .route s wo so rnd =>
    match x.up s with
    | [] => none
    | m :: rest => ({ x with up := upd x.up s rest } : Sys).handle w s m wo so rnd
  | .deliver s =>
    match x.down s with
    | [] => none
    | m :: rest => some { x with client := upd x.client s ((Session.recv m).run (x.client s)).1, down := upd x.down s rest }

/-- Every state that some sequence of actions leads to. -/
inductive Reach (w : Str → Str → Bool) : Sys → Prop where
  | new : Reach w Sys.new
  | act {x y : Sys} (a : Action) : Reach w x → x.act w a = some y → Reach w y

/-- Client `s` never used a request ID twice for requests of the same kind. -/
def Fresh (x : Sys) (s : Nat) : Prop := ((x.sent s).filterMap Session.request).Nodup

/-- The messages a broker sends. -/
def fromBroker : Msg → Prop
  | .subscribed .. | .unsubscribed .. | .published .. | .event .. => True
  | _ => False

/-- The messages a dealer sends. -/
def fromDealer : Msg → Prop
  | .result .. | .registered .. | .unregistered .. | .invocation .. => True
  | .error t _ _ _ _ _ => t = 48 ∨ t = 64
  | _ => False

/-- A sequence of actions, oldest first. -/
def Sys.run (w : Str → Str → Bool) : Sys → List Action → Option Sys
  | x, [] => some x
  | x, a :: as => (x.act w a).bind fun y => y.run w as

end Wamp.System
