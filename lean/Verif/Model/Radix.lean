import Verif.Model.Router
/-!
# The radix tree

go-immutable-radix v2.1.0 as broker.go:35, 75, 127, 160, 193-194 and dealer.go:84, 123, 174, 327, 356 use it.  Not part of the repository; modelled from the library: `Txn.insert`,
`Txn.delete`, `mergeChild`, `Node.LongestPrefix`.  The broker and the dealer of this model have a table of entries instead (`longestPrefix` in Model/Router); C143 says that this makes
no difference.  Simplified: a node's edges are a list that is searched from the left, where the library searches its sorted slice by bisection; nodes are values, where the library copies
them before it changes them; a leaf does not repeat its key.
-/
namespace Wamp.Radix
open Wamp

mutual
/-- A node: the value of the key that ends here, the bytes between its parent and it, and its edges. -/
inductive Node (V : Type) where
  | mk (leaf : Option V) (pfx : Str) (edges : Edges V)
/-- The edges of a node, by their labels. -/
inductive Edges (V : Type) where
  | nil
  | cons (label : UInt8) (child : Node V) (rest : Edges V)
end

variable {V : Type}

/-- The bytes between its parent and a node. -/
def Node.pfx : Node V → Str
  | .mk _ p _ => p
/-- The value of the key that ends at a node. -/
def Node.leaf : Node V → Option V
  | .mk l _ _ => l
/-- The edges of a node. -/
def Node.edges : Node V → Edges V
  | .mk _ _ es => es
/-- The node with other bytes in front of it. -/
def Node.under (p : Str) : Node V → Node V
  | .mk l _ es => .mk l p es

/-- `longestPrefix` of two keys: the number of bytes they have in common. -/
def common : Str → Str → Nat
  | a :: s, b :: t => if a = b then common s t + 1 else 0
  | _, _ => 0

/-- A new node for the rest of a key. -/
def single (search : Str) (v : V) : Node V := .mk (some v) search .nil

/-- `addEdge`: at its place among the labels. -/
def Edges.add (c : UInt8) (n : Node V) : Edges V → Edges V
  | .nil => .cons c n .nil
  | .cons l m rest => if c < l then .cons c n (.cons l m rest) else .cons l m (rest.add c n)

/-- The node that takes the place of `child` when a key leaves it after `k` of its bytes. -/
def split (child : Node V) (k : Nat) (search : Str) (v : V) : Node V :=
  let old := child.under (child.pfx.drop k)
  match child.pfx.drop k with
  | [] => child                                                  -- not reached
  | b :: _ =>
    match search.drop k with
    | [] => .mk (some v) (search.take k) (.cons b old .nil)
    | c :: rest => .mk none (search.take k) ((Edges.cons b old .nil).add c (single (c :: rest) v))

mutual
/-- `Txn.insert`: store `v` under the rest `search` of a key. -/
def Node.insert (v : V) : Node V → Str → Node V
  | .mk _ p es, [] => .mk (some v) p es
  | .mk l p es, c :: s => .mk l p (es.insert v c (c :: s))
/-- The same below the edge with label `c`, which is made if there is none. -/
def Edges.insert (v : V) : Edges V → UInt8 → Str → Edges V
  | .nil, c, search => .cons c (single search v) .nil
  | .cons l n rest, c, search =>
    if c < l then .cons c (single search v) (.cons l n rest)
    else if c = l then
      .cons l (if common search n.pfx = n.pfx.length then n.insert v (search.drop n.pfx.length) else split n (common search n.pfx) search v) rest
    else .cons l n (rest.insert v c search)
end

/-- `mergeChild`, if there is a single edge and no value: the node takes over everything of its child. -/
def merge : Node V → Node V
  | .mk none p (.cons _ (.mk l q es) .nil) => .mk l (p ++ q) es
  | n => n

/-- Is there nothing at the node and below it? -/
def Node.isEmpty : Node V → Bool
  | .mk none _ .nil => true
  | _ => false

mutual
/-- `Txn.delete`: remove the rest `search` of a key; `none` if it is not there.  (`root`: a root is not merged with its child.) -/
def Node.delete (root : Bool) : Node V → Str → Option (Node V)
  | .mk none _ _, [] => none
  | .mk (some _) p es, [] => some (if root then .mk none p es else merge (.mk none p es))
  | .mk l p es, c :: s => (es.delete c (c :: s)).map fun r => if r.2 && !root then merge (.mk l p r.1) else .mk l p r.1
/-- The same below the edge with label `c`, and whether that edge was removed. -/
def Edges.delete : Edges V → UInt8 → Str → Option (Edges V × Bool)
  | .nil, _, _ => none
  | .cons l n rest, c, search =>
    if c = l then
      if n.pfx.isPrefixOf search then
        (n.delete false (search.drop n.pfx.length)).map fun n' => if n'.isEmpty then (rest, true) else (.cons l n' rest, false)
      else none
    else (rest.delete c search).map fun r => (.cons l n r.1, r.2)
end

mutual
/-- `Node.LongestPrefix`: `last` is the value found last on the way. -/
def Node.longest : Node V → Option V → Str → Option V
  | .mk l _ _, last, [] => l.or last
  | .mk l _ es, last, c :: s => es.longest (l.or last) c (c :: s)
/-- The same below the edge with label `c`. -/
def Edges.longest : Edges V → Option V → UInt8 → Str → Option V
  | .nil, last, _, _ => last
  | .cons l n rest, last, c, search =>
    if c = l then if n.pfx.isPrefixOf search then n.longest last (search.drop n.pfx.length) else last
    else rest.longest last c search
end

mutual
/-- `Node.Get` -/
def Node.get : Node V → Str → Option V
  | .mk l _ _, [] => l
  | .mk _ _ es, c :: s => es.get c (c :: s)
/-- The same below the edge with label `c`. -/
def Edges.get : Edges V → UInt8 → Str → Option V
  | .nil, _, _ => none
  | .cons l n rest, c, search =>
    if c = l then if n.pfx.isPrefixOf search then n.get (search.drop n.pfx.length) else none
    else rest.get c search
end

/-- A tree: its root and the number of its keys. -/
structure Tree (V : Type) where
  root : Node V
  size : Nat

/-- `New` -/
def Tree.new : Tree V := ⟨.mk none [] .nil, 0⟩

/-- `Tree.Insert` -/
def Tree.insert (t : Tree V) (k : Str) (v : V) : Tree V := ⟨t.root.insert v k, if (t.root.get k).isSome then t.size else t.size + 1⟩

/-- `Tree.Delete` -/
def Tree.delete (t : Tree V) (k : Str) : Tree V :=
  match t.root.delete true k with
  | some n => ⟨n, t.size - 1⟩
  | none => t

/-- The lookup in broker.go:193-194 and dealer.go:173-174. -/
def Tree.lookup (t : Tree V) (name : Str) : Option V := if 0 < t.size then t.root.longest none name else none

end Wamp.Radix
