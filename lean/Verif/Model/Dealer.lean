import Verif.Model.Router
/-!
# `dealer.go`

`*Registration` pointers are addresses into a heap of `Reg` objects, because the same object is reachable through several maps and is
mutated.  Every method holds the mutex from beginning to end (dealer.go:90-91, 104-105, 148-149, 156-157, 162-163), so a method is
one transition.  A method that panics returns some state, which is meaningless: histories end there (`Verif.Spec.Dealer`).
-/
namespace Wamp.Dealer

/-- `OptionReceiveProgress` (dealer.go:16) -/
def optReceiveProgress : Str := str "receive_progress"
/-- `OptionProgress` (dealer.go:17) -/
def optProgress : Str := str "progress"
/-- `OptionInvoke` (dealer.go:19) -/
def optInvoke : Str := str "invoke"
/-- `InvokeSingle` (dealer.go:25) -/
def invokeSingle : Str := str "single"
/-- `InvokeFirst` (dealer.go:26) -/
def invokeFirst : Str := str "first"
/-- `InvokeLast` (dealer.go:27) -/
def invokeLast : Str := str "last"
/-- `InvokeRoundRobin` (dealer.go:28) -/
def invokeRoundRobin : Str := str "roundrobin"
/-- `InvokeRandom` (dealer.go:29) -/
def invokeRandom : Str := str "random"

/-- `PendingInvocation` (dealer.go:39-45) -/
structure Pending where
  requestID : Nat
  callerID : Nat
  calleeID : Nat
  progress : Bool
  receiveProgress : Bool

/-- `Registration` (dealer.go:47-55).  `Registrants` only ever maps a session ID to itself (dealer.go:311, 318), so it is represented
by the list of its keys. -/
structure Reg where
  id : Nat
  procedure : Str
  registrants : List Nat
  policy : Str
  nextCallee : Nat
  callees : List Nat
  mtch : Str

/-- `Dealer` (dealer.go:62-74): the heap and the next free address are added; `prefixTree` is given by its entries; the key
`CallMap` (dealer.go:57-60) is a pair. -/
structure State where
  heap : Nat → Reg
  next : Nat
  sessions : FMap Nat SessionDetails
  byProc : FMap Str Nat
  bySession : FMap Nat (AMap Nat Nat)
  tree : AMap Str Nat
  wc : AMap Str Nat
  pending : AMap Nat Pending
  invByCall : FMap (Nat × Nat) Nat
  details : Bool
  idGen : Nat

/-- `NewDealer` (dealer.go:76-87) -/
def init : State :=
  ⟨fun _ => ⟨0, [], [], [], 0, [], []⟩, 0, FMap.empty, FMap.empty, FMap.empty, [], [], [], FMap.empty, false, 0⟩

/-- `AddSession` (dealer.go:89-101).  The argument is not nil. -/
def addSession (b : State) (d : SessionDetails) : State × Res Unit :=
  if (b.sessions d.id).isSome then (b, .err)
  else ({ b with bySession := b.bySession.set d.id [], sessions := b.sessions.set d.id d }, .ok ())

/-- The loop over `registration.callees` in `RemoveSession` (dealer.go:130-138).  `range` evaluates the slice once, so the loop runs
over the original backing array `bk` (of which `k` elements from index `i` on are left), while line 135 shifts elements of that same
array in place and only the length `len` of the field shrinks.  `callees[i+1:]` panics if `i+1` exceeds the length; after line 133 the
field is a new slice of length and capacity 0, for which line 135 panics too. -/
def surgery (id : Nat) : (k i : Nat) → (bk : List Nat) → (len : Nat) → Res (List Nat)
  | 0, _, bk, len => .ok (bk.take len)
  | k + 1, i, bk, len =>
    if bk[i]? = some id then
      if len = 1 then surgery id k (i + 1) bk 0
      else if len < i + 1 then .panic
      else surgery id k (i + 1) (bk.take i ++ (bk.take len).drop (i + 1) ++ bk.drop (len - 1)) (len - 1)
    else surgery id k (i + 1) bk len

/-- One iteration of the loop in `RemoveSession` (dealer.go:113-139); `a` is the loop variable `reg`.  The result of
`prefixTree.Delete` (dealer.go:123) is discarded and the tree is immutable, so the tree does not change. -/
def removeStep (id : Nat) (b : State) (a : Nat) : Res State :=
  match b.byProc (b.heap a).procedure with
  | none => .ok b
  | some p =>
    (surgery id (b.heap p).callees.length 0 (b.heap p).callees (b.heap p).callees.length).bind fun cs =>
      let reg := { b.heap p with registrants := (b.heap p).registrants.filter (· ≠ id), callees := cs }
      .ok { b with
        heap := hset b.heap p reg
        byProc := if reg.registrants.isEmpty then b.byProc.del reg.procedure else b.byProc
        wc := if reg.mtch = matchWildcard then b.wc.del reg.procedure else b.wc }

/-- The loop (dealer.go:113-139). -/
def removeLoop (id : Nat) : State → List Nat → Res State
  | b, [] => .ok b
  | b, a :: as => (removeStep id b a).bind fun b => removeLoop id b as

/-- `RemoveSession` (dealer.go:103-145); `order` is the iteration order of the session's registrations. -/
def removeSession (b : State) (id : Nat) (order : List Nat) : State × Res Unit :=
  match b.sessions id with
  | none => (b, .err)
  | some _ =>
    let m := (b.bySession id).getD []                                    -- a nil map has no elements
    match removeLoop id b ((arrange order m.keys).filterMap m.get) with
    | .ok b' => ({ b' with bySession := b'.bySession.del id, sessions := b'.sessions.del id }, .ok ())
    | .err => (b, .err)
    | .panic => (b, .panic)

/-- `HasProcedure` (dealer.go:147-153) -/
def hasProcedure (b : State) (procedure : Str) : Bool :=
  match b.byProc procedure with
  | none => false
  | some a => !(b.heap a).registrants.isEmpty

/-- `AutoDiscloseCaller` (dealer.go:155-159) -/
def autoDisclose (b : State) (disclose : Bool) : State := { b with details := disclose }

/-- The registration a CALL is routed to (dealer.go:171-188). -/
def lookup (w : Str → Str → Bool) (order : List Str) (b : State) (procedure : Str) : Option Nat :=
  match b.byProc procedure with
  | some a =>
    if (b.heap a).registrants.isEmpty then
      -- `found` stays true, so only the prefix tree is consulted
      match longestPrefix b.tree procedure with
      | some q => some q
      | none => some a
    else some a
  | none =>
    match longestPrefix b.tree procedure with
    | some q => some q
    | none => firstWildcard w order b.wc procedure

/-- The callee (dealer.go:196-218) and the new value of `nextCallee`; `rand.Intn(n)` returns `rnd % n` for an arbitrary `rnd`. -/
def pick (g : Reg) (rnd : Nat) : Res (Nat × Nat) :=
  if 1 < g.callees.length then
    if g.policy = invokeFirst then .ok (g.callees.getD 0 0, g.nextCallee)
    else if g.policy = invokeLast then .ok (g.callees.getD (g.callees.length - 1) 0, g.nextCallee)
    else if g.policy = invokeRoundRobin then
      let n := if g.callees.length ≤ g.nextCallee then 0 else g.nextCallee
      .ok (g.callees.getD n 0, n + 1)
    else if g.policy = invokeRandom then .ok (g.callees.getD (rnd % g.callees.length) 0, g.nextCallee)
    else .ok (g.callees.getD 0 0, g.nextCallee)
  else
    match g.callees with
    | [] => .panic                                                       -- dealer.go:217 indexes an empty slice
    | c :: _ => .ok (c, g.nextCallee)

/-- The error for an unroutable CALL (dealer.go:191-193). -/
def noSuchProcedure (req : Nat) : Msg := newError 48 req (some []) (str "wamp.error.no_such_procedure") none none

/-- Details of an INVOCATION (dealer.go:236-251), keys sorted; `caller` is the caller's entry in `sessions` when it is to be
disclosed. -/
def invocationDetails (caller : Option SessionDetails) (sid : Nat) (procedure : Str) (progress receiveProgress : Bool) : Dict :=
  (match caller with
   | some c => [(str "caller", .u64 sid), (str "caller_authid", .str c.authID), (str "caller_authrole", .str c.authRole),
      (str "procedure", .str procedure)]
   | none => []) ++
  (if progress then [(optProgress, .bool true)] else []) ++
  (if receiveProgress then [(optReceiveProgress, .bool true)] else [])

/-- CALL (dealer.go:166-266) with the iteration order of the wildcard table and the random number. -/
def call (w : Str → Str → Bool) (b : State) (sid req : Nat) (options : GoMap) (procedure : Str) (args : GoSlice) (kwargs : GoMap)
    (bin : Bin) (order : List Str) (rnd : Nat) : State × Res (Msg × Nat) :=
  match lookup w order b procedure with
  | none => (b, .ok (noSuchProcedure req, sid))
  | some a =>
    if (b.heap a).registrants.isEmpty then (b, .ok (noSuchProcedure req, sid))
    else
      match pick (b.heap a) rnd with
      | .err => (b, .err)
      | .panic => (b, .panic)
      | .ok (callee, nc) =>
        let receiveProgress := options.flag optReceiveProgress
        let progress := options.flag optProgress
        let old := b.invByCall (sid, req)
        let fresh := old.isNone || !progress
        let inv := if fresh then (nextID b.idGen).2 else old.getD 0
        let b' := { b with
          heap := hset b.heap a { b.heap a with nextCallee := nc }
          idGen := if fresh then (nextID b.idGen).1 else b.idGen
          pending := if fresh then b.pending.set inv ⟨req, sid, callee, progress, receiveProgress⟩ else b.pending
          invByCall := if fresh then b.invByCall.set (sid, req) inv else b.invByCall }
        if b.details && (b.sessions sid).isNone then (b', .panic)        -- dealer.go:249 reads a field through a nil pointer
        else
          let details := invocationDetails (if b.details then b.sessions sid else none) sid procedure progress receiveProgress
          match b.sessions callee with
          | none => (b', .err)
          | some c =>
            if bin.binary && c.static then
              (b', .ok (newInvocationBinary inv (b.heap a).id (some details) bin.payload bin.serializer, callee))
            else (b', .ok (newInvocation inv (b.heap a).id (some details) args kwargs, callee))

/-- YIELD (dealer.go:267-294) -/
def yield (b : State) (req : Nat) (options : GoMap) (args : GoSlice) (kwargs : GoMap) (bin : Bin) : State × Res (Msg × Nat) :=
  match b.pending.get req with
  | none => (b, .err)
  | some p =>
    let progress := options.flag optProgress
    let more := p.receiveProgress && progress
    let details : GoMap := if more then some [(optProgress, .bool true)] else none
    let b' := if more then b else { b with pending := b.pending.del req }
    match b.sessions p.callerID with
    | none => (b', .err)
    | some c =>
      if bin.binary && c.static then (b', .ok (newResultBinary p.requestID details bin.payload bin.serializer, p.callerID))
      else (b', .ok (newResult p.requestID details args kwargs, p.callerID))

/-- The refusal of a REGISTER (dealer.go:307-309). -/
def alreadyExists (req : Nat) : Msg := newError 64 req (some []) (str "wamp.error.procedure_already_exists") none none

/-- REGISTER (dealer.go:295-340) -/
def register (b : State) (sid req : Nat) (options : GoMap) (procedure : Str) : State × Res (Msg × Nat) :=
  match b.bySession sid with
  | none => (b, .err)
  | some m =>
    let policy := options.text optInvoke
    match b.byProc procedure with
    | some a =>
      let g := b.heap a
      if g.policy = [] ∨ g.policy = invokeSingle ∨ g.policy ≠ policy then (b, .ok (alreadyExists req, sid))
      else
        let g := { g with
          registrants := if g.registrants.contains sid then g.registrants else g.registrants ++ [sid]
          callees := g.callees ++ [sid] }
        ({ b with heap := hset b.heap a g, bySession := b.bySession.set sid (m.set g.id a) }, .ok (newRegistered req g.id, sid))
    | none =>
      let g := nextID b.idGen
      let mt := normMatch (options.text optMatch)
      let reg : Reg := ⟨g.2, procedure, [sid], policy, 0, [sid], mt⟩
      ({ b with
          heap := hset b.heap b.next reg
          next := b.next + 1
          idGen := g.1
          tree := if mt = matchPrefix then b.tree.set procedure b.next else b.tree
          wc := if mt = matchWildcard then b.wc.set procedure b.next else b.wc
          byProc := b.byProc.set procedure b.next
          bySession := b.bySession.set sid (m.set reg.id b.next) },
        .ok (newRegistered req reg.id, sid))

/-- UNREGISTER (dealer.go:341-364).  The result of `prefixTree.Delete` (dealer.go:356) is discarded. -/
def unregister (b : State) (sid req regID : Nat) : State × Res (Msg × Nat) :=
  match b.bySession sid with
  | none => (b, .err)
  | some m =>
    if m.isEmpty then (b, .err)
    else
      match m.get regID with
      | none => (b, .panic)                                              -- dealer.go:350 reads a field through a nil pointer
      | some a =>
        let g := { b.heap a with registrants := (b.heap a).registrants.filter (· ≠ sid) }
        let b' := { b with heap := hset b.heap a g }
        let b'' := if g.registrants.isEmpty then
            { b' with
              bySession := b.bySession.set sid (m.del regID)
              byProc := b.byProc.del g.procedure
              wc := if g.mtch = matchWildcard then b.wc.del g.procedure else b.wc }
          else b'
        (b'', .ok (newUnregistered req, sid))

/-- ERROR (dealer.go:365-380) -/
def error (b : State) (messageType req : Nat) (details : GoMap) (uri : Str) (args : GoSlice) (kwargs : GoMap) : State × Res (Msg × Nat) :=
  if messageType ≠ 68 then (b, .err)
  else
    match b.pending.get req with
    | none => (b, .err)
    | some p => ({ b with pending := b.pending.del req }, .ok (newError 48 p.requestID details uri args kwargs, p.callerID))

/-- `ReceiveMessage` (dealer.go:161-384): the message and its recipient.  The argument is one of the library's message types. -/
def receive (w : Str → Str → Bool) (b : State) (sid : Nat) (m : Msg) (order : List Str) (rnd : Nat) : State × Res (Msg × Nat) :=
  match m with
  | .call r o p a k bin => call w b sid r o p a k bin order rnd
  | .yield r o a k bin => yield b r o a k bin
  | .register r o p => register b sid r o p
  | .unregister r i => unregister b sid r i
  | .error t r d u a k => error b t r d u a k
  | _ => (b, .err)

/-- A call of one of the methods. -/
inductive Op where
  | add (d : SessionDetails)
  | remove (sid : Nat) (order : List Nat)
  | has (procedure : Str)
  | disclose (on : Bool)
  | receive (sid : Nat) (m : Msg) (order : List Str) (rnd : Nat)

/-- What a call returns. -/
inductive Out where
  | unit
  | bool (b : Bool)
  | msg (m : Msg) (recipient : Nat)

/-- Execute a call. -/
def step (w : Str → Str → Bool) (b : State) : Op → State × Res Out
  | .add d => let r := addSession b d; (r.1, r.2.map fun _ => .unit)
  | .remove s o => let r := removeSession b s o; (r.1, r.2.map fun _ => .unit)
  | .has p => (b, .ok (.bool (hasProcedure b p)))
  | .disclose on => (autoDisclose b on, .ok .unit)
  | .receive s m order rnd => let r := receive w b s m order rnd; (r.1, r.2.map fun x => .msg x.1 x.2)

end Wamp.Dealer
