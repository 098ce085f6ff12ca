import Verif.Model.IdGen
/-!
# Mutex-protected methods under arbitrary scheduling

`SessionScopeIDGenerator.NextID` (idgen.go:30-40) and every method of `Broker` (broker.go) and `Dealer`
(dealer.go) start with `Lock()` and hold the mutex until they return (`defer Unlock()`).  This file models
such methods at the grain of individual reads and writes: a scheduler interleaves the micro-steps of any
number of goroutines in any order; only the mutex restricts it.
-/
namespace Wamp.Lock

/-- A type of method calls `M` on shared data `S`; each call has goroutine-local data `L` and a body made of
micro-steps (single reads or writes). -/
structure Obj (S L M : Type) where
  /-- local variables at entry -/
  entry : M → L
  /-- the statements between `Lock` and `Unlock` -/
  body : M → List (S × L → S × L)

/-- What one goroutine is doing. -/
inductive Thr (S L M : Type) where
  /-- outside any method -/
  | idle
  /-- blocked in `Lock()` -/
  | waiting (m : M)
  /-- inside the critical section with these statements left -/
  | running (m : M) (rest : List (S × L → S × L)) (l : L)

/-- A completed call: who, what, and the final local data (which include the returned value). -/
structure Done (L M : Type) where
  tid : Nat
  call : M
  ret : L

/-- Whole system: shared data, mutex, goroutines (numbered by `Nat`), and the calls completed so far, oldest
first. -/
structure Cfg (S L M : Type) where
  shared : S
  holder : Option Nat
  thr : Nat → Thr S L M
  log : List (Done L M)

/-- Replace the state of goroutine `t`. -/
def upd {α : Type} (f : Nat → α) (t : Nat) (a : α) : Nat → α := fun u => if u = t then a else f u

/-- Initially nobody is in a method. -/
def Cfg.init {S L M : Type} (s : S) : Cfg S L M := ⟨s, none, fun _ => .idle, []⟩

/-- One scheduling step of one goroutine. -/
inductive Step {S L M : Type} (o : Obj S L M) : Cfg S L M → Cfg S L M → Prop where
  /-- the goroutine calls a method and reaches `Lock()` -/
  | call (c t m) : c.thr t = .idle → Step o c { c with thr := upd c.thr t (.waiting m) }
  /-- `Lock()` returns; only possible if nobody holds the mutex -/
  | acquire (c t m) : c.thr t = .waiting m → c.holder = none →
      Step o c { c with holder := some t, thr := upd c.thr t (.running m (o.body m) (o.entry m)) }
  /-- one statement of the body -/
  | micro (c t m f rest l) : c.thr t = .running m (f :: rest) l →
      Step o c { c with shared := (f (c.shared, l)).1,
                        thr := upd c.thr t (.running m rest (f (c.shared, l)).2) }
  /-- end of the body: deferred `Unlock()` and return -/
  | release (c t m l) : c.thr t = .running m [] l →
      Step o c { c with holder := none, thr := upd c.thr t .idle, log := c.log ++ [⟨t, m, l⟩] }

/-- Configurations some schedule can reach from shared data `s`. -/
inductive Reach {S L M : Type} (o : Obj S L M) (s : S) : Cfg S L M → Prop where
  | init : Reach o s (Cfg.init s)
  | step (c c') : Reach o s c → Step o c c' → Reach o s c'

/-- The whole body run without interruption. -/
def Obj.atomic {S L M : Type} (o : Obj S L M) (s : S) (m : M) : S × L :=
  (o.body m).foldl (fun x f => f x) (s, o.entry m)

/-- Locals of `NextID`: a register and the return value. -/
structure IdLocals where
  reg : Nat
  ret : Nat
  deriving DecidableEq, Repr

/-- `NextID` (idgen.go:30-40) statement by statement. -/
def nextIDObj : Obj Nat IdLocals Unit where
  entry _ := ⟨0, 0⟩
  body _ :=
    [ fun (s, l) => (s, { l with reg := s }),                         -- idgen.go:34 read s.id
      fun (s, l) => (if l.reg = maxID then 0 else s, l),              -- idgen.go:35 s.id = 0
      fun (s, l) => (s, { l with reg := s }),                         -- idgen.go:38 read s.id
      fun (_, l) => (l.reg + 1, l),                                   -- idgen.go:38 write s.id
      fun (s, l) => (s, { l with ret := s }) ]                        -- idgen.go:39 read s.id

end Wamp.Lock
