import Verif.Model.Base
/-!
# `idgen.go`
-/
namespace Wamp

/-- `maxID` (idgen.go:12) -/
def maxID : Nat := 2 ^ 53

/-- `SessionScopeIDGenerator.NextID` (idgen.go:30-40): given the field `id`, the new field and the
returned ID. The zero generator has `id = 0`. -/
def nextID (id : Nat) : Nat × Nat :=
  let id := if id = maxID then 0 else id      -- idgen.go:34-36
  let id := id + 1                            -- idgen.go:38
  (id, id)

/-- `GenerateID` (idgen.go:20-23) when `rand.Int63n(1<<53)` returns `r`; by the contract of `Int63n`,
`r < maxID`. `util.AsUInt64` of a non-negative `int64` is the identity. -/
def generateID (r : Fin maxID) : Nat := r.val

end Wamp
