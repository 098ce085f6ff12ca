import Verif.Model.Router
/-!
# `broker.go`

`*Subscription` pointers are addresses into a heap of `Sub` objects, because the same object is reachable through several maps
and is mutated.  Every method holds the mutex from beginning to end (broker.go:41-42, 55-56, 89-90, 97-98, 103-104, 179-180), so a
method is one transition.
-/
namespace Wamp.Broker

/-- `Subscription` (types.go:83-88).  `Subscribers` only ever maps a session ID to itself (broker.go:116, 121), so it is represented
by the list of its keys. -/
structure Sub where
  id : Nat
  topic : Str
  subscribers : List Nat
  mtch : Str

/-- `Broker` (broker.go:17-27): the heap and the next free address are added; `prefixTree` is given by its entries. -/
structure State where
  heap : Nat → Sub
  next : Nat
  byTopic : FMap Str Nat
  bySession : FMap Nat (AMap Nat Nat)
  sessions : FMap Nat SessionDetails
  tree : AMap Str Nat
  wc : AMap Str Nat
  details : Bool
  idGen : Nat

/-- `NewBroker` (broker.go:29-38) -/
def init : State := ⟨fun _ => ⟨0, [], [], []⟩, 0, FMap.empty, FMap.empty, FMap.empty, [], [], false, 0⟩

/-- `AddSession` (broker.go:40-52).  The argument is not nil. -/
def addSession (b : State) (d : SessionDetails) : State × Res Unit :=
  if (b.bySession d.id).isSome then (b, .err)
  else ({ b with bySession := b.bySession.set d.id [], sessions := b.sessions.set d.id d }, .ok ())

/-- One iteration of the loop in `RemoveSession` (broker.go:65-80); `a` is the loop variable `v`. -/
def removeStep (id : Nat) (b : State) (a : Nat) : Res State :=
  let v := b.heap a
  match b.byTopic v.topic with
  | none => .panic                                                       -- broker.go:70 reads a field through a nil pointer
  | some p =>
    let sub := { b.heap p with subscribers := (b.heap p).subscribers.filter (· ≠ id) }
    .ok { b with
      heap := hset b.heap p sub
      byTopic := if sub.subscribers.isEmpty then b.byTopic.del v.topic else b.byTopic
      tree := if sub.mtch = matchPrefix then b.tree.del sub.topic else b.tree
      wc := if sub.mtch = matchWildcard then b.wc.del v.topic else b.wc }

/-- The loop (broker.go:64-81). -/
def removeLoop (id : Nat) : State → List Nat → Res State
  | b, [] => .ok b
  | b, a :: as => (removeStep id b a).bind fun b => removeLoop id b as

/-- `RemoveSession` (broker.go:54-86); `order` is the iteration order of the session's subscriptions. -/
def removeSession (b : State) (id : Nat) (order : List Nat) : State × Res Unit :=
  match b.bySession id with
  | none => (b, .err)
  | some m =>
    match removeLoop id { b with bySession := b.bySession.del id } ((arrange order m.keys).filterMap m.get) with
    | .ok b' => ({ b' with sessions := b'.sessions.del id }, .ok ())
    | .err => (b, .err)
    | .panic => (b, .panic)

/-- `HasSubscription` (broker.go:88-94) -/
def hasSubscription (b : State) (topic : Str) : Bool := (b.byTopic topic).isSome

/-- `AutoDisclosePublisher` (broker.go:96-100) -/
def autoDisclose (b : State) (disclose : Bool) : State := { b with details := disclose }

/-- SUBSCRIBE (broker.go:107-141) -/
def subscribe (b : State) (sid req : Nat) (options : GoMap) (topic : Str) : State × Res (Msg × Nat) :=
  match b.bySession sid with
  | none => (b, .err)
  | some m =>
    match b.byTopic topic with
    | some p =>
      let sub := b.heap p
      let sub := { sub with subscribers := if sub.subscribers.contains sid then sub.subscribers else sub.subscribers ++ [sid] }
      ({ b with heap := hset b.heap p sub, bySession := b.bySession.set sid (m.set sub.id p) },
        .ok (newSubscribed req sub.id, sid))
    | none =>
      let g := nextID b.idGen
      let mt := normMatch (options.text optMatch)
      let sub : Sub := ⟨g.2, topic, [sid], mt⟩
      ({ b with
          heap := hset b.heap b.next sub
          next := b.next + 1
          idGen := g.1
          tree := if mt = matchPrefix then b.tree.set topic b.next else b.tree
          wc := if mt = matchWildcard then b.wc.set topic b.next else b.wc
          byTopic := b.byTopic.set topic b.next
          bySession := b.bySession.set sid (m.set sub.id b.next) },
        .ok (newSubscribed req sub.id, sid))

/-- UNSUBSCRIBE (broker.go:142-170) -/
def unsubscribe (b : State) (sid req subID : Nat) : State × Res (Msg × Nat) :=
  match b.bySession sid with
  | none => (b, .err)
  | some m =>
    match m.get subID with
    | none => (b, .err)
    | some p =>
      let sub := { b.heap p with subscribers := (b.heap p).subscribers.filter (· ≠ sid) }
      ({ b with
          heap := hset b.heap p sub
          byTopic := if sub.subscribers.isEmpty then b.byTopic.del sub.topic else b.byTopic
          tree := if sub.mtch = matchPrefix then b.tree.del sub.topic else b.tree
          wc := if sub.mtch = matchWildcard then b.wc.del sub.topic else b.wc
          bySession := b.bySession.set sid (m.del sub.id) },
        .ok (newUnsubscribed req, sid))

/-- `ReceiveMessage` (broker.go:102-176): the message and its recipient.  The argument is one of the library's message types. -/
def receive (b : State) (sid : Nat) (m : Msg) : State × Res (Msg × Nat) :=
  match m with
  | .subscribe r o t => subscribe b sid r o t
  | .unsubscribe r i => unsubscribe b sid r i
  | _ => (b, .err)

/-- `Publication` (types.go:90-94); `none` is a nil pointer. -/
structure Publication where
  event : Option Msg
  recipients : List Nat
  ack : Option (Msg × Nat)

/-- The subscription a topic is delivered to (broker.go:190-208). -/
def lookup (w : Str → Str → Bool) (order : List Str) (b : State) (topic : Str) : Option Nat :=
  let found := b.byTopic topic
  match found with
  | some p =>
    if (b.heap p).subscribers.isEmpty then
      -- `exists` stays true, so only the prefix tree is consulted
      match longestPrefix b.tree topic with
      | some q => some q
      | none => some p
    else some p
  | none =>
    match longestPrefix b.tree topic with
    | some q => some q
    | none => firstWildcard w order b.wc topic

/-- The details of an EVENT (broker.go:210-217), keys sorted; `publisher` is the entry of the publisher in `sessions`. -/
def eventDetails (b : State) (sid : Nat) (topic : Str) : Res Dict :=
  if b.details then
    match b.sessions sid with
    | none => .panic                                                     -- broker.go:215 reads a field through a nil pointer
    | some p => .ok [(str "publisher", .u64 sid), (str "publisher_authid", .str p.authID),
        (str "publisher_authrole", .str p.authRole), (str "topic", .str topic)]
  else .ok []

/-- `ReceivePublish` (broker.go:178-233) with the iteration orders of the wildcard table and of the subscribers. -/
def publish (w : Str → Str → Bool) (b : State) (sid req : Nat) (options : GoMap) (topic : Str) (args : GoSlice) (kwargs : GoMap)
    (wcOrder : List Str) (subOrder : List Nat) : State × Res Publication :=
  match b.bySession sid with
  | none => (b, .err)
  | some _ =>
    let g := nextID b.idGen
    let b' := { b with idGen := g.1 }
    let ack := if options.flag (str "acknowledge") then some (newPublished req g.2, sid) else none
    match lookup w wcOrder b topic with
    | none => (b', .ok ⟨none, [], ack⟩)
    | some p =>
      if (b.heap p).subscribers.isEmpty then (b', .ok ⟨none, [], ack⟩)
      else
        match eventDetails b sid topic with
        | .ok d => (b', .ok ⟨some (newEvent (b.heap p).id g.2 (some d) args kwargs), arrange subOrder (b.heap p).subscribers, ack⟩)
        | .err => (b', .err)
        | .panic => (b', .panic)

/-- A call of one of the methods. -/
inductive Op where
  | add (d : SessionDetails)
  | remove (sid : Nat) (order : List Nat)
  | has (topic : Str)
  | disclose (on : Bool)
  | receive (sid : Nat) (m : Msg)
  | publish (sid req : Nat) (options : GoMap) (topic : Str) (args : GoSlice) (kwargs : GoMap) (wcOrder : List Str)
      (subOrder : List Nat)

/-- What a call returns. -/
inductive Out where
  | unit
  | bool (b : Bool)
  | msg (m : Msg) (recipient : Nat)
  | pub (p : Publication)

/-- Execute a call. -/
def step (w : Str → Str → Bool) (b : State) : Op → State × Res Out
  | .add d => let r := addSession b d; (r.1, r.2.map fun _ => .unit)
  | .remove s o => let r := removeSession b s o; (r.1, r.2.map fun _ => .unit)
  | .has t => (b, .ok (.bool (hasSubscription b t)))
  | .disclose on => (autoDisclose b on, .ok .unit)
  | .receive s m => let r := receive b s m; (r.1, r.2.map fun x => .msg x.1 x.2)
  | .publish s q o t a k wo so => let r := publish w b s q o t a k wo so; (r.1, r.2.map .pub)

end Wamp.Broker
