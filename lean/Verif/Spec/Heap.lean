import Verif.Model.Heap
import Verif.Spec.Accessors
/-!
# Which maps a message holds and which a constructor writes to
-/
namespace Wamp.Heap
open Wamp Wamp.Spec

/-- The maps passed to a constructor: first its options, details or extra, then the others. -/
def passed : Build Ref → List Ref
  | .hello _ _ x o _ => [x, o]
  | .welcome _ d => [d]
  | .abort d _ _ k => [d, k]
  | .challenge _ e => [e]
  | .authenticate _ e => [e]
  | .goodbye _ d => [d]
  | .error _ _ d _ _ k => [d, k]
  | .publish _ o _ _ k => [o, k]
  | .subscribe _ o _ => [o]
  | .event _ _ d _ k => [d, k]
  | .call _ o _ _ k => [o, k]
  | .callBinary _ o _ _ _ => [o]
  | .cancel _ o => [o]
  | .result _ d _ k => [d, k]
  | .resultBinary _ d _ _ => [d]
  | .register _ o _ => [o]
  | .invocation _ _ d _ k => [d, k]
  | .invocationBinary _ _ d _ _ => [d]
  | .interrupt _ o => [o]
  | .yield _ o _ k => [o, k]
  | .yieldBinary _ o _ _ => [o]
  | .published .. => []
  | .subscribed .. => []
  | .unsubscribe .. => []
  | .unsubscribed .. => []
  | .registered .. => []
  | .unregister .. => []
  | .unregistered .. => []

/-- The caller passes maps that exist. -/
def Valid (h : Heap) (b : Build Ref) : Prop := ∀ a, some a ∈ passed b → a < h.length

/-- The same constructor call with the contents of the maps in place of the maps. -/
def contents (h : Heap) : Build Ref → Build GoMap
  | .hello r i x o m => .hello r i (load h x) (load h o) m
  | .welcome s d => .welcome s (load h d)
  | .abort d r a k => .abort (load h d) r a (load h k)
  | .challenge m e => .challenge m (load h e)
  | .authenticate s e => .authenticate s (load h e)
  | .goodbye r d => .goodbye r (load h d)
  | .error t r d u a k => .error t r (load h d) u a (load h k)
  | .publish r o t a k => .publish r (load h o) t a (load h k)
  | .published r p => .published r p
  | .subscribe r o t => .subscribe r (load h o) t
  | .subscribed r s => .subscribed r s
  | .unsubscribe r s => .unsubscribe r s
  | .unsubscribed r => .unsubscribed r
  | .event s p d a k => .event s p (load h d) a (load h k)
  | .call r o p a k => .call r (load h o) p a (load h k)
  | .callBinary r o p b s => .callBinary r (load h o) p b s
  | .cancel r o => .cancel r (load h o)
  | .result r d a k => .result r (load h d) a (load h k)
  | .resultBinary r d b s => .resultBinary r (load h d) b s
  | .register r o p => .register r (load h o) p
  | .registered r g => .registered r g
  | .unregister r g => .unregister r g
  | .unregistered r => .unregistered r
  | .invocation r g d a k => .invocation r g (load h d) a (load h k)
  | .invocationBinary r g d b s => .invocationBinary r g (load h d) b s
  | .interrupt r o => .interrupt r (load h o)
  | .yield r o a k => .yield r (load h o) a (load h k)
  | .yieldBinary r o b s => .yieldBinary r (load h o) b s

/-- Constructor calls that are given a map the message at hand may hold and write to it: binary ones with one of the maps `maps`. -/
def Touches (maps : List Nat) (b : Build Ref) : Prop := isBinary b = true ∧ ∃ a ∈ maps, some a ∈ passed b

/-- The maps a new message holds: those passed, and the one made for it (at the end of the heap) if it got nil. -/
def held (h : Heap) (b : Build Ref) : List Nat := (passed b).filterMap id ++ [h.length]

end Wamp.Heap
