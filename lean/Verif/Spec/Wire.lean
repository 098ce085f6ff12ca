import Verif.Model.Validator
/-!
# What a wire format is expected to do
-/
namespace Wamp.Spec
open Wamp

/-- `norm v` is what `v` becomes after encoding and decoding; this is what every self-describing format guarantees:
strings stay strings, lists and string-keyed maps keep their structure, `[]string` becomes a list of strings and
nil slices/maps become null.  Nothing is said about numbers. -/
structure WireNorm (norm : Val → Val) : Prop where
  str : ∀ s, norm (.str s) = .str s
  arr : ∀ l, norm (.arr l) = .arr (l.map norm)
  map : ∀ d : Dict, norm (.map d) = .map (d.map fun p => (p.1, norm p.2))
  strs : ∀ l, norm (.strs l) = .arr (l.map .str)
  strsNil : norm .strsNil = .nil
  arrNil : norm .arrNil = .nil
  mapNil : norm .mapNil = .nil

/-- The codec encodes every list satisfying `ok` and decodes it to the normalised list. -/
def Faithful (c : Codec) (norm : Val → Val) (ok : List Val → Prop) : Prop :=
  ∀ l, ok l → ∃ b, c.enc l = some b ∧ c.dec b = some (l.map norm)

/-- Contents of a dictionary after the wire. -/
def onDict (norm : Val → Val) (d : Dict) : Dict := d.map fun p => (p.1, norm p.2)
/-- Args after the wire. -/
def onArgs (norm : Val → Val) (a : GoSlice) (k : GoMap) : GoSlice :=
  match a, k with
  | some l, _ => some (l.map norm)
  | none, some _ => some []
  | none, none => none
/-- Kwargs, options or details after the wire. -/
def onMap (norm : Val → Val) (m : GoMap) : GoMap := m.map (onDict norm)

/-- The identifiers in a message (including the number of the request kind in ERROR). -/
def ids : Msg → List Nat
  | .welcome s _ => [s] | .error t r _ _ _ _ => [t, r] | .publish r _ _ _ _ => [r] | .published r p => [r, p]
  | .subscribe r _ _ => [r] | .subscribed r s => [r, s] | .unsubscribe r s => [r, s] | .unsubscribed r => [r]
  | .event s p _ _ _ => [s, p] | .call r _ _ _ _ _ => [r] | .cancel r _ => [r] | .result r _ _ _ _ => [r]
  | .register r _ _ => [r] | .registered r g => [r, g] | .unregister r g => [r, g] | .unregistered r => [r]
  | .invocation r g _ _ _ _ => [r, g] | .interrupt r _ => [r] | .yield r _ _ _ _ => [r]
  | .hello .. => [] | .abort .. => [] | .challenge .. => [] | .authenticate .. => [] | .goodbye .. => []

/-- The message as it arrives: same identifiers, URIs, strings; same options, details, args and kwargs up to the format's
widening. -/
def received (norm : Val → Val) : Msg → Msg
  | .hello realm authID ms x r =>
      .hello realm authID (some (ms.getD [])) (some (onDict norm (x.getD []))) (some (onDict norm (r.getD [])))
  | .welcome s d => .welcome s (onMap norm d)
  | .abort d r a k => .abort (onMap norm d) r (onArgs norm a k) (onMap norm k)
  | .challenge m e => .challenge m (onMap norm e)
  | .authenticate s e => .authenticate s (some (onDict norm (e.getD [])))
  | .goodbye d r => .goodbye (onMap norm d) r
  | .error t r d u a k => .error t r (onMap norm d) u (onArgs norm a k) (onMap norm k)
  | .publish r o t a k => .publish r (onMap norm o) t (onArgs norm a k) (onMap norm k)
  | .published r p => .published r p
  | .subscribe r o t => .subscribe r (onMap norm o) t
  | .subscribed r s => .subscribed r s
  | .unsubscribe r s => .unsubscribe r s
  | .unsubscribed r => .unsubscribed r
  | .event s p d a k => .event s p (onMap norm d) (onArgs norm a k) (onMap norm k)
  | .call r o p a k b => .call r (onMap norm o) p (onArgs norm a k) (onMap norm k) b
  | .cancel r o => .cancel r (onMap norm o)
  | .result r d a k b => .result r (onMap norm d) (onArgs norm a k) (onMap norm k) b
  | .register r o p => .register r (onMap norm o) p
  | .registered r g => .registered r g
  | .unregister r g => .unregister r g
  | .unregistered r => .unregistered r
  | .invocation r g d a k b => .invocation r g (onMap norm d) (onArgs norm a k) (onMap norm k) b
  | .interrupt r o => .interrupt r (onMap norm o)
  | .yield r o a k b => .yield r (onMap norm o) (onArgs norm a k) (onMap norm k) b

/-- Messages for which the round trip is claimed: options/details present (the constructors ensure this except for
WELCOME and CHALLENGE), no binary payload, and no ABORT with kwargs but nil args. -/
def Transmissible : Msg → Prop
  | .hello .. => True
  | .authenticate .. => True
  | .welcome _ d => d ≠ none
  | .challenge _ e => e ≠ none
  | .abort d _ a k => d ≠ none ∧ (k ≠ none → a ≠ none)
  | .goodbye d _ => d ≠ none
  | .error _ _ d _ _ _ => d ≠ none
  | .publish _ o _ _ _ => o ≠ none
  | .subscribe _ o _ => o ≠ none
  | .event _ _ d _ _ => d ≠ none
  | .call _ o _ _ _ b => o ≠ none ∧ b = Bin.none
  | .cancel _ o => o ≠ none
  | .result _ d _ _ b => d ≠ none ∧ b = Bin.none
  | .register _ o _ => o ≠ none
  | .invocation _ _ d _ _ b => d ≠ none ∧ b = Bin.none
  | .interrupt _ o => o ≠ none
  | .yield _ o _ _ b => o ≠ none ∧ b = Bin.none
  | _ => True

end Wamp.Spec
