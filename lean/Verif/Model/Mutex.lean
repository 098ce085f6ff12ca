/-!
# Which mutexes the methods take

A broker or dealer has a mutex (broker.go:26, dealer.go:73), and so has its ID generator (idgen.go:27), which it uses while it holds its own.  Here a call is
the list of what it does with mutexes; everything else it does is `work`.  Which list a call amounts to depends on the state and on the arguments; `Method` allows all of
them.  `Lock` and `Unlock` are also methods of `Broker`, `Dealer` and `SessionScopeIDGenerator`, because the mutex is embedded; users who call those themselves are not
modelled.
-/
namespace Wamp.Mutex

/-- The mutex of the `n`-th broker or dealer, and the mutex of the `n`-th ID generator; `NewBroker` and `NewDealer` make a generator of their own (broker.go:36,
dealer.go:85). -/
inductive Key where
  | part (n : Nat)
  | ids (n : Nat)
  deriving DecidableEq, Repr

/-- What a call does next. -/
inductive Instr where
  | lock (k : Key)
  | unlock (k : Key)
  | work
  deriving DecidableEq, Repr

/-- `NextID` (idgen.go:30-40): `Lock`, the statements of the body, and the deferred `Unlock`. -/
def nextID (n : Nat) : List Instr := [.lock (.ids n), .work, .work, .work, .unlock (.ids n)]

/-- What a method does while it holds the mutex: statements without locks, and calls of `NextID` (broker.go:119, 188, dealer.go:225, 316).  A panic ends it at any point, since the
`Unlock` is deferred. -/
inductive Body (n : Nat) : List Instr → Prop where
  | done : Body n []
  | work {l : List Instr} : Body n l → Body n (.work :: l)
  | id {l : List Instr} : Body n l → Body n (nextID n ++ l)

/-- A call of a method: of a broker (broker.go:41-42, 55-56, 89-90, 97-98, 103-104, 179-180) or dealer (dealer.go:90-91, 104-105, 148-149, 156-157, 162-163), all of which start with
`Lock` and `defer Unlock`, or of an ID generator. -/
inductive Method : List Instr → Prop where
  | part {n : Nat} {l : List Instr} : Body n l → Method (.lock (.part n) :: (l ++ [.unlock (.part n)]))
  | ids (n : Nat) : Method (nextID n)

/-- What each goroutine has left to do, who holds which mutex, and a bound for the numbers of the goroutines that have made calls. -/
structure Cfg where
  todo : Nat → List Instr
  holder : Key → Option Nat
  used : Nat

/-- Nobody is in a method. -/
def Cfg.init : Cfg := ⟨fun _ => [], fun _ => none, 0⟩

/-- Goroutine `i` goes on with `l`. -/
def Cfg.now (c : Cfg) (i : Nat) (l : List Instr) : Nat → List Instr := fun j => if j = i then l else c.todo j
/-- The mutex `k` is held by `h`. -/
def Cfg.held (c : Cfg) (k : Key) (h : Option Nat) : Key → Option Nat := fun j => if j = k then h else c.holder j

/-- Goroutine `i` continues its call.  `Lock` waits until nobody holds the mutex, also when the caller itself holds it; `Unlock` of a mutex that nobody holds is a fatal
error, for which there is no step. -/
inductive Continue (i : Nat) : Cfg → Cfg → Prop where
  | lock {c : Cfg} {k : Key} {l : List Instr} : c.todo i = .lock k :: l → c.holder k = none →
    Continue i c { c with todo := c.now i l, holder := c.held k (some i) }
  | unlock {c : Cfg} {k : Key} {l : List Instr} : c.todo i = .unlock k :: l → c.holder k ≠ none →
    Continue i c { c with todo := c.now i l, holder := c.held k none }
  | work {c : Cfg} {l : List Instr} : c.todo i = .work :: l → Continue i c { c with todo := c.now i l }

/-- Everything that can happen: an idle goroutine makes a call, or a goroutine continues its call. -/
inductive Step : Cfg → Cfg → Prop where
  | call {c : Cfg} (i : Nat) {l : List Instr} : c.todo i = [] → Method l → Step c { c with todo := c.now i l, used := max c.used (i + 1) }
  | go {c c' : Cfg} (i : Nat) : Continue i c c' → Step c c'

/-- What some schedule can lead to. -/
inductive Reach : Cfg → Prop where
  | init : Reach .init
  | step {c c' : Cfg} : Reach c → Step c c' → Reach c'

/-- `Runs n c c'`: goroutines, in any order, make `n` steps, in which no new call is made. -/
inductive Runs : Nat → Cfg → Cfg → Prop where
  | refl (c : Cfg) : Runs 0 c c
  | step {n : Nat} {c c' c'' : Cfg} (i : Nat) : Continue i c c' → Runs n c' c'' → Runs (n + 1) c c''

/-- An endless execution, in which anything that can happen happens at any time, or nothing does. -/
structure Exec where
  cfg : Nat → Cfg
  start : cfg 0 = .init
  next : ∀ n, Step (cfg n) (cfg (n + 1)) ∨ cfg (n + 1) = cfg n

/-- The scheduler and the mutexes are fair: a goroutine that could continue again and again does so again and again.  (A `sync.Mutex` is fair: a goroutine that has been waiting
for a millisecond is handed the mutex by whoever releases it next.) -/
def Exec.Fair (σ : Exec) : Prop :=
  ∀ i, (∀ N, ∃ n, N ≤ n ∧ ∃ c', Continue i (σ.cfg n) c') → ∀ N, ∃ n, N ≤ n ∧ Continue i (σ.cfg n) (σ.cfg (n + 1))

/-- The number of steps that the calls under way have left. -/
def Cfg.left (c : Cfg) : Nat := ((List.range c.used).map fun i => (c.todo i).length).sum

end Wamp.Mutex
