import Verif.Model.Session
/-!
# `internal/map.go`

`Map[K, V]` wraps a `sync.Map`, whose keys and values are of type `any`: the methods convert to `any` and assert the types back.
A `sync.Map` is a map whose operations are atomic, so calls from several goroutines have the effects of the same calls in some order.
-/
namespace Wamp.SyncMap

/-- A Go type `T`: conversion to `any` and the assertion `x.(T)` without comma-ok, where `none` is a panic.
An `any` is nil (`none`) or holds a value in `X`. -/
structure GoTy (T X : Type) where
  box : T → Option X
  assert : Option X → Option T

/-- A type that is no interface. -/
def concrete (T : Type) : GoTy T T := ⟨some, id⟩
/-- An interface type, e.g. `any` or `error`: converting a nil interface gives nil, and asserting nil panics. -/
def iface (X : Type) : GoTy (Option X) X := ⟨id, fun a => a.map some⟩

variable {K V X Y : Type} [DecidableEq X]

/-- The `sync.Map`. -/
abbrev State (X Y : Type) := AMap (Option X) (Option Y)

/-- `v.(V)` -/
def asserted (gv : GoTy V Y) (a : Option Y) : Res V := Res.orPanic (gv.assert a)

/-- A call of a method. `range`: the function that is passed, and the order in which the entries come. -/
inductive Op (K V X : Type) where
  | delete (k : K)
  | load (k : K)
  | loadAndDelete (k : K)
  | loadOrStore (k : K) (v : V)
  | range (f : K → V → Bool) (order : List (Option X))
  | store (k : K) (v : V)

/-- What a call returns, apart from the zero value that comes with `false`; for `Range` the arguments of the calls of the function. -/
inductive Out (K V : Type) where
  | unit
  | found (v : Option V)
  | actual (v : V) (loaded : Bool)
  | seen (l : List (K × V))

/-- `Range` (internal/map.go:36-40) from some entry on. The function does not use the map. -/
def visit (gk : GoTy K X) (gv : GoTy V Y) (f : K → V → Bool) : List (Option X × Option Y) → Res (List (K × V))
  | [] => .ok []
  | (a, b) :: rest =>
    (asserted gk a).bind fun k =>
      (asserted gv b).bind fun v =>
        if f k v then (visit gk gv f rest).map fun l => (k, v) :: l else .ok [(k, v)]

/-- The entries in the given order. -/
def entries (order : List (Option X)) (m : State X Y) : List (Option X × Option Y) :=
  (arrange order m.keys).filterMap fun a => (m.get a).map fun b => (a, b)

/-- The methods of `Map` (internal/map.go:9-44) -/
def step (gk : GoTy K X) (gv : GoTy V Y) (m : State X Y) : Op K V X → State X Y × Res (Out K V)
  | .delete k => (m.del (gk.box k), .ok .unit)                                     -- :9-11
  | .load k =>                                                                     -- :13-20
    match m.get (gk.box k) with
    | none => (m, .ok (.found none))
    | some a => (m, (asserted gv a).map fun v => .found (some v))
  | .loadAndDelete k =>                                                            -- :22-29
    match m.get (gk.box k) with
    | none => (m, .ok (.found none))
    | some a => (m.del (gk.box k), (asserted gv a).map fun v => .found (some v))
  | .loadOrStore k v =>                                                            -- :31-34
    match m.get (gk.box k) with
    | some a => (m, (asserted gv a).map fun v => .actual v true)
    | none => (m.set (gk.box k) (gv.box v), (asserted gv (gv.box v)).map fun v => .actual v false)
  | .range f order => (m, (visit gk gv f (entries order m)).map .seen)             -- :36-40
  | .store k v => (m.set (gk.box k) (gv.box v), .ok .unit)                         -- :42-44

/-- A session method (session.go:49-268) on nine such maps. -/
def run {α : Type} (ms : Session.Tab → State Nat Nat) : Session.Prog α → (Session.Tab → State Nat Nat) × Res α
  | .ret a => (ms, .ok a)
  | .load t k c =>
    match step (concrete Nat) (concrete Nat) (ms t) (.load k) with
    | (_, .ok (.found v)) => run ms (c v)
    | _ => (ms, .panic)
  | .store t k v c => run (fun t' => if t' = t then (step (concrete Nat) (concrete Nat) (ms t) (.store k v)).1 else ms t') c
  | .delete t k c => run (fun t' => if t' = t then (step (concrete Nat) (concrete Nat) (ms t) (.delete k)).1 else ms t') c
  | .loadAndDelete t k c =>
    match step (concrete Nat) (concrete Nat) (ms t) (.loadAndDelete k) with
    | (m', .ok (.found v)) => run (fun t' => if t' = t then m' else ms t') (c v)
    | _ => (ms, .panic)

end Wamp.SyncMap
