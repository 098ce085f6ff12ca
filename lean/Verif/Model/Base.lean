/-!
# Basic vocabulary of the model

Go strings and byte slices are lists of bytes.  A Go call has three kinds of outcome: it returns a
value, it returns an `error`, or it panics; `Res` makes all three explicit.
-/
namespace Wamp

/-- A Go `string` (or `[]byte`): a finite sequence of bytes. -/
abbrev Str := List UInt8

/-- A Go string literal.  Only ASCII literals occur in the modelled code. -/
def str (s : String) : Str := s.toList.map (fun c => UInt8.ofNat c.toNat)

/-- Outcome of a Go call: normal return, non-nil `error`, or run-time panic.
Error texts are not modelled. -/
inductive Res (α : Type) where
  | ok (a : α)
  | err
  | panic
  deriving DecidableEq, Repr

namespace Res
/-- Sequencing of calls: errors are returned early (`if err != nil { return err }`), panics propagate. -/
def bind {α β : Type} (x : Res α) (f : α → Res β) : Res β :=
  match x with
  | ok a => f a
  | err => err
  | panic => panic

@[simp] theorem bind_ok {α β : Type} (a : α) (f : α → Res β) : (Res.ok a).bind f = f a := rfl
@[simp] theorem bind_err {α β : Type} (f : α → Res β) : (Res.err : Res α).bind f = .err := rfl
@[simp] theorem bind_panic {α β : Type} (f : α → Res β) : (Res.panic : Res α).bind f = .panic := rfl

/-- Apply a function to a normal result. -/
def map {α β : Type} (f : α → β) (x : Res α) : Res β := x.bind (fun a => .ok (f a))

@[simp] theorem map_ok {α β : Type} (a : α) (f : α → β) : (Res.ok a).map f = .ok (f a) := rfl
@[simp] theorem map_err {α β : Type} (f : α → β) : (Res.err : Res α).map f = .err := rfl
@[simp] theorem map_panic {α β : Type} (f : α → β) : (Res.panic : Res α).map f = .panic := rfl

/-- An `Option` (Go's `v, ok`) turned into `v, err`. -/
def ofOption {α : Type} : Option α → Res α
  | some a => ok a
  | none => err

/-- `Res` of a partial operation that panics when it is undefined. -/
def orPanic {α : Type} : Option α → Res α
  | some a => ok a
  | none => panic
end Res

/-! ## Maps -/

/-- A Go map whose size and iteration order the code never observes. -/
abbrev FMap (K V : Type) := K → Option V

namespace FMap
variable {K V : Type} [DecidableEq K]
/-- `make(map[K]V)` -/
def empty : FMap K V := fun _ => none
/-- `m[k] = v` -/
def set (m : FMap K V) (k : K) (v : V) : FMap K V := fun k' => if k' = k then some v else m k'
/-- `delete(m, k)` -/
def del (m : FMap K V) (k : K) : FMap K V := fun k' => if k' = k then none else m k'

omit [DecidableEq K] in
@[simp] theorem empty_apply (k : K) : (empty : FMap K V) k = none := rfl
@[simp] theorem set_same (m : FMap K V) (k : K) (v : V) : m.set k v k = some v := by simp [set]
theorem set_other (m : FMap K V) {k k' : K} (v : V) (h : k' ≠ k) : m.set k v k' = m k' := by
  simp [set, h]
@[simp] theorem del_same (m : FMap K V) (k : K) : m.del k k = none := by simp [del]
theorem del_other (m : FMap K V) {k k' : K} (h : k' ≠ k) : m.del k k' = m k' := by simp [del, h]
theorem set_apply (m : FMap K V) (k k' : K) (v : V) :
    m.set k v k' = if k' = k then some v else m k' := rfl
theorem del_apply (m : FMap K V) (k k' : K) : m.del k k' = if k' = k then none else m k' := rfl
end FMap

/-- A Go map that is iterated over or measured with `len`: its entries in some order. -/
abbrev AMap (K V : Type) := List (K × V)

namespace AMap
variable {K V : Type} [DecidableEq K]
/-- `v, ok := m[k]` -/
def get : AMap K V → K → Option V
  | [], _ => none
  | (k', v) :: rest, k => if k = k' then some v else get rest k
/-- `m[k] = v` -/
def set : AMap K V → K → V → AMap K V
  | [], k, v => [(k, v)]
  | (k', v') :: rest, k, v => if k = k' then (k, v) :: rest else (k', v') :: set rest k v
/-- `delete(m, k)` -/
def del : AMap K V → K → AMap K V
  | [], _ => []
  | (k', v') :: rest, k => if k = k' then del rest k else (k', v') :: del rest k
/-- The keys, in storage order. -/
def keys (m : AMap K V) : List K := m.map Prod.fst
end AMap

/-- The order in which Go ranges over a map with these keys when its (random) choice is `order`:
any list yields a permutation of `ks`, and every permutation arises from itself
(`Verif.Lemmas.Base`). -/
def arrange {K : Type} [DecidableEq K] (order ks : List K) : List K :=
  (order.eraseDups.filter (fun k => ks.contains k)) ++ ks.filter (fun k => !order.contains k)

end Wamp
