import Verif.Model.Validator
/-!
# `session.go`: the client-side `Session`

`Session` has no lock: its nine tables are `sync.Map`s (internal/map.go), whose operations are atomic.  Each method is
therefore a program of atomic table operations.  `Prog.run` executes it without interruption; `Sched` interleaves the
operations of any number of concurrent calls.
-/
namespace Wamp.Session

/-- The nine tables (session.go:14-25). -/
inductive Tab where
  | call | register | registrations | invocation | unregister
  | publish | subscribe | subscriptions | unsubscribe
  deriving DecidableEq, Repr

/-- Contents of the tables. The value `struct{}{}` is represented by `0`. -/
abbrev State := Tab → FMap Nat Nat

/-- `NewSession` (session.go:28-47): all tables empty. -/
def init : State := fun _ => FMap.empty

/-- Replace the contents of one table. -/
def State.put (s : State) (t : Tab) (m : FMap Nat Nat) : State := fun t' => if t' = t then m else s t'

/-- A program of atomic table operations (internal/map.go:9-45) returning a value. -/
inductive Prog (α : Type) where
  | ret (a : α)
  | load (t : Tab) (k : Nat) (cont : Option Nat → Prog α)
  | store (t : Tab) (k v : Nat) (cont : Prog α)
  | delete (t : Tab) (k : Nat) (cont : Prog α)
  | loadAndDelete (t : Tab) (k : Nat) (cont : Option Nat → Prog α)

/-- The program executed without interruption. -/
def Prog.run {α : Type} : Prog α → State → State × α
  | .ret a, s => (s, a)
  | .load t k c, s => (c (s t k)).run s
  | .store t k v c, s => c.run (s.put t ((s t).set k v))
  | .delete t k c, s => c.run (s.put t ((s t).del k))
  | .loadAndDelete t k c, s => (c (s t k)).run (s.put t ((s t).del k))

/-- `"progress"` (dealer.go:17) -/
def optProgress : Str := str "progress"

/-- `SendMessage` (session.go:49-116); `data` is the outcome of serializing the message. -/
def send (data : Res Str) (m : Msg) : Prog (Res Str) :=
  match data with
  | .err => .ret .err
  | .panic => .ret .panic
  | .ok b =>
    match m with
    | .call r _ _ _ _ _ => .store .call r 0 (.ret (.ok b))
    | .yield r o _ _ _ => if o.flag optProgress then .ret (.ok b) else .delete .invocation r (.ret (.ok b))
    | .register r _ _ => .store .register r 0 (.ret (.ok b))
    | .unregister r g => .store .unregister r g (.ret (.ok b))
    | .publish r o _ _ _ => if o.flag (str "acknowledge") then .store .publish r 0 (.ret (.ok b)) else .ret (.ok b)
    | .subscribe r _ _ => .store .subscribe r 0 (.ret (.ok b))
    | .unsubscribe r g => .load .subscriptions g fun
      | none => .ret .err
      | some _ => .store .unsubscribe r g (.ret (.ok b))
    | .error t r _ _ _ _ => if t ≠ 68 then .ret .err else .delete .invocation r (.ret (.ok b))
    | .goodbye .. => .ret (.ok b)
    | _ => .ret .err

/-- The table a request kind waits in (the inner switch, session.go:215-260, by message type number). -/
def errorTab : Nat → Option Tab
  | 48 => some .call
  | 64 => some .register
  | 66 => some .unregister
  | 32 => some .subscribe
  | 34 => some .unsubscribe
  | 16 => some .publish
  | _ => none

/-- `ReceiveMessage` (session.go:127-268). On success the message itself is returned. -/
def recv (m : Msg) : Prog (Res Msg) :=
  match m with
  | .result r d _ _ _ => .load .call r fun
    | none => .ret .err
    | some _ => if d.flag optProgress then .ret (.ok m) else .delete .call r (.ret (.ok m))
  | .registered r g => .loadAndDelete .register r fun
    | none => .ret .err
    | some _ => .store .registrations g 0 (.ret (.ok m))
  | .unregistered r => .load .unregister r fun
    | none => .ret .err
    | some g => .loadAndDelete .registrations g fun
      | none => .ret .err
      | some _ => .ret (.ok m)
  | .invocation r g _ _ _ _ => .load .registrations g fun
    | none => .ret .err
    | some _ => .store .invocation r 0 (.ret (.ok m))
  | .published r _ => .loadAndDelete .publish r fun
    | none => .ret .err
    | some _ => .ret (.ok m)
  | .subscribed r g => .load .subscribe r fun
    | none => .ret .err
    | some _ => .store .subscriptions g 0 (.ret (.ok m))
  | .unsubscribed r => .load .unsubscribe r fun
    | none => .ret .err
    | some g => .loadAndDelete .subscriptions g fun
      | none => .ret .err
      | some _ => .ret (.ok m)
  | .event g _ _ _ _ => .load .subscriptions g fun
    | none => .ret .err
    | some _ => .ret (.ok m)
  | .error t r _ _ _ _ =>
    match errorTab t with
    | none => .ret .err
    | some tab => .loadAndDelete tab r fun
      | none => .ret .err
      | some _ => .ret (.ok m)
  | .goodbye .. => .ret (.ok m)
  | .abort .. => .ret (.ok m)
  | _ => .ret .err

/-- `Receive` (session.go:118-125). -/
def receive (c : Codec) (data : Str) : Prog (Res Msg) :=
  match c.deserialize data with
  | .ok m => recv m
  | .err => .ret .err
  | .panic => .ret .panic

/-! ### Concurrent calls -/

/-- A call of a method: `SendMessage` (with the outcome of serializing), or `ReceiveMessage`. -/
inductive Op where
  | send (data : Res Str) (m : Msg)
  | recv (m : Msg)

/-- The program of a call; the value is whether the call succeeded. -/
def Op.prog : Op → Prog Bool
  | .send d m => go (Session.send d m)
  | .recv m => go (Session.recv m)
where
  /-- Only whether the outcome is `ok`. -/
  go {α : Type} : Prog (Res α) → Prog Bool
  | .ret (.ok _) => .ret true
  | .ret _ => .ret false
  | .load t k c => .load t k fun v => go (c v)
  | .store t k v c => .store t k v (go c)
  | .delete t k c => .delete t k (go c)
  | .loadAndDelete t k c => .loadAndDelete t k fun v => go (c v)

/-- A table operation that was executed, with the value found under the key before. -/
inductive Done where
  | load (t : Tab) (k : Nat) (found : Option Nat)
  | store (t : Tab) (k v : Nat)
  | delete (t : Tab) (k : Nat) (found : Option Nat)
  | loadAndDelete (t : Tab) (k : Nat) (found : Option Nat)

/-- A call in progress (or finished, when `rest` is `ret`), with the operations it executed so far, newest first. -/
structure Thread where
  op : Op
  rest : Prog Bool
  done : List Done

/-- Tables and all calls started so far. -/
structure Cfg where
  tabs : State
  calls : List Thread

/-- Execute the next operation of a program. -/
inductive Micro : State → Prog Bool → State → Prog Bool → Done → Prop where
  | load (s t k c) : Micro s (.load t k c) s (c (s t k)) (.load t k (s t k))
  | store (s t k v c) : Micro s (.store t k v c) (s.put t ((s t).set k v)) c (.store t k v)
  | delete (s t k c) : Micro s (.delete t k c) (s.put t ((s t).del k)) c (.delete t k (s t k))
  | loadAndDelete (s t k c) :
      Micro s (.loadAndDelete t k c) (s.put t ((s t).del k)) (c (s t k)) (.loadAndDelete t k (s t k))

/-- One step of the scheduler: some goroutine starts a call, or one of the calls in progress executes one operation. -/
inductive Step : Cfg → Cfg → Prop where
  | start (s calls op) : Step ⟨s, calls⟩ ⟨s, calls ++ [⟨op, op.prog, []⟩]⟩
  | micro (s s' pre th post rest d) : Micro s th.rest s' rest d →
      Step ⟨s, pre ++ th :: post⟩ ⟨s', pre ++ ⟨th.op, rest, d :: th.done⟩ :: post⟩

/-- Configurations reachable under some schedule from a new session. -/
inductive Reach : Cfg → Prop where
  | init : Reach ⟨Session.init, []⟩
  | step (c c') : Reach c → Step c c' → Reach c'

end Wamp.Session
