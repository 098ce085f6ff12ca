import Verif.Model.Acceptor
import Verif.Model.IdGen
/-!
# What `Broker` and `Dealer` share
-/
namespace Wamp

/-- `OptionMatch` (dealer.go:18) -/
def optMatch : Str := str "match"
/-- `MatchExact` (dealer.go:21) -/
def matchExact : Str := str "exact"
/-- `MatchPrefix` (dealer.go:22) -/
def matchPrefix : Str := str "prefix"
/-- `MatchWildcard` (dealer.go:23) -/
def matchWildcard : Str := str "wildcard"

/-- The switch over the `match` option (broker.go:123-133, dealer.go:323-333): anything else is exact. -/
def normMatch (m : Str) : Str :=
  if m = matchPrefix then matchPrefix else if m = matchWildcard then matchWildcard else matchExact

/-- `Root().LongestPrefix` of go-immutable-radix (broker.go:194, dealer.go:174): the value stored under the longest key that is a
prefix of `name`.  The radix tree itself is a library; it is represented by its entries here (Model/Radix has the tree; C143). -/
def longestPrefix {V : Type} (t : AMap Str V) (name : Str) : Option V := go name.length
where
  /-- Try the prefixes of length `n`, `n-1`, …, 0. -/
  go : Nat → Option V
  | 0 => t.get []
  | n + 1 =>
    match t.get (name.take (n + 1)) with
    | some v => some v
    | none => go n

/-- The loop over a wildcard table (broker.go:201-206, dealer.go:181-186): the first pattern, in the iteration order of the map,
that matches.  `w name pattern` stands for `wildcardMatch` (dealer.go:386-389, `path.Match`), which is a parameter here; Model/PathMatch has the
function itself. -/
def firstWildcard {V : Type} (w : Str → Str → Bool) (order : List Str) (wc : AMap Str V) (name : Str) : Option V :=
  ((arrange order wc.keys).find? fun pattern => w name pattern).bind wc.get

/-- Change one object of a heap. -/
def hset {α : Type} (heap : Nat → α) (a : Nat) (x : α) : Nat → α := fun b => if b = a then x else heap b

end Wamp
