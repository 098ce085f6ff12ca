import Verif.Model.Acceptor
/-!
# Handshake messages that differ in details nobody knows
-/
namespace Wamp

/-- Two maps have the same entries under the given keys. -/
def sameUnder (ks : List String) (d d' : Dict) : Prop := ∀ k ∈ ks, dget d (str k) = dget d' (str k)

/-- The bytes `b` and `b'` stand for messages of type `code` (in any representation of that number) with the same second element, and with maps
as third element that have the same entries under the keys `ks`. -/
def sameBut (c : Codec) (code : Nat) (ks : List String) (b b' : Str) : Prop :=
  ∃ v x d d', asUInt64 v = some code ∧ c.dec b = some [v, x, .map d] ∧ c.dec b' = some [v, x, .map d'] ∧ sameUnder ks d d'

end Wamp
