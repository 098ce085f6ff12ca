import Verif.Model.Accessors
import Verif.Spec.Wire
/-!
# What one expects to get out of a message

`told b` lists what was said when the message was built, by the name of the method that should return it.
-/
namespace Wamp.Spec
open Wamp

/-- The contents of a map argument: none if nil was passed. -/
def entries (m : GoMap) : Dict := m.getD []

/-- What was passed as args and kwargs. -/
def body (a : GoSlice) (k : GoMap) : List (Field × Obs) := [(.args, .list a), (.kwArgs, .dict k)]

/-- The same in a message that could also have a binary payload: there is none. -/
def plain (a : GoSlice) (k : GoMap) : List (Field × Obs) :=
  [(.payloadIsBinary, .flag false), (.payload, .bytes []), (.payloadSerializer, .id 0), (.args, .list a), (.kwArgs, .dict k)]

/-- What was passed to the constructor, by the accessor expected to return it.  A nil map of options or details stands for an empty one
(except in HELLO, WELCOME, CHALLENGE and AUTHENTICATE).  The maps of the binary constructors are dealt with separately. -/
def told : Build GoMap → List (Field × Obs)
  | .hello r i x o m => [(.realm, .text r), (.authID, .text i), (.authExtra, .dict x), (.roles, .dict o), (.authMethods, .texts m)]
  | .welcome s d => [(.sessionID, .id s), (.details, .dict d)]
  | .abort d r a k => (.details, .dict (some (entries d))) :: (.reason, .text r) :: body a k
  | .challenge m e => [(.authMethod, .text m), (.extra, .dict e)]
  | .authenticate s e => [(.signature, .text s), (.extra, .dict e)]
  | .goodbye r d => [(.reason, .text r), (.details, .dict (some (entries d)))]
  | .error t r d u a k => (.messageType, .id t) :: (.requestID, .id r) :: (.details, .dict (some (entries d))) :: (.uri, .text u) :: plain a k
  | .publish r o t a k => (.requestID, .id r) :: (.options, .dict (some (entries o))) :: (.topic, .text t) :: plain a k
  | .published r p => [(.requestID, .id r), (.publicationID, .id p)]
  | .subscribe r o t => [(.requestID, .id r), (.options, .dict (some (entries o))), (.topic, .text t)]
  | .subscribed r s => [(.requestID, .id r), (.subscriptionID, .id s)]
  | .unsubscribe r s => [(.requestID, .id r), (.subscriptionID, .id s)]
  | .unsubscribed r => [(.requestID, .id r)]
  | .event s p d a k => (.subscriptionID, .id s) :: (.publicationID, .id p) :: (.details, .dict (some (entries d))) :: plain a k
  | .call r o p a k => (.requestID, .id r) :: (.options, .dict (some (entries o))) :: (.procedure, .text p) :: plain a k
  | .callBinary r _ p b s => [(.requestID, .id r), (.procedure, .text p), (.payloadIsBinary, .flag true), (.payload, .bytes b), (.payloadSerializer, .id s)]
  | .cancel r o => [(.requestID, .id r), (.options, .dict (some (entries o)))]
  | .result r d a k => (.requestID, .id r) :: (.details, .dict (some (entries d))) :: plain a k
  | .resultBinary r _ b s => [(.requestID, .id r), (.payloadIsBinary, .flag true), (.payload, .bytes b), (.payloadSerializer, .id s)]
  | .register r o p => [(.requestID, .id r), (.options, .dict (some (entries o))), (.procedure, .text p)]
  | .registered r g => [(.requestID, .id r), (.registrationID, .id g)]
  | .unregister r g => [(.requestID, .id r), (.registrationID, .id g)]
  | .unregistered r => [(.requestID, .id r)]
  | .invocation r g d a k =>
      (.requestID, .id r) :: (.registrationID, .id g) :: (.details, .dict (some (entries d))) :: plain a k
  | .invocationBinary r g _ b s =>
      [(.requestID, .id r), (.registrationID, .id g), (.payloadIsBinary, .flag true), (.payload, .bytes b), (.payloadSerializer, .id s)]
  | .interrupt r o => [(.requestID, .id r), (.options, .dict (some (entries o)))]
  | .yield r o a k => (.requestID, .id r) :: (.options, .dict (some (entries o))) :: plain a k
  | .yieldBinary r _ b s => [(.requestID, .id r), (.payloadIsBinary, .flag true), (.payload, .bytes b), (.payloadSerializer, .id s)]

/-- The message was built with a binary payload. -/
def isBinary {M : Type} : Build M → Bool
  | .callBinary .. => true
  | .resultBinary .. => true
  | .invocationBinary .. => true
  | .yieldBinary .. => true
  | _ => false

/-- How a value arrives: identifiers, text and flags as they are; values in lists and maps by `norm`; a nil list or map in HELLO and
AUTHENTICATE, and a nil list of args where there are kwargs, arrives as an empty one.  `Arrives norm v w`: `v` may arrive as `w`. -/
inductive Arrives (norm : Val → Val) : Obs → Obs → Prop
  | id (n) : Arrives norm (.id n) (.id n)
  | text (s) : Arrives norm (.text s) (.text s)
  | flag (b) : Arrives norm (.flag b) (.flag b)
  | bytes (b) : Arrives norm (.bytes b) (.bytes b)
  | texts (l) : Arrives norm (.texts (some l)) (.texts (some l))
  | noTexts : Arrives norm (.texts none) (.texts (some []))
  | dict (d : Dict) : Arrives norm (.dict (some d)) (.dict (some (d.map fun p => (p.1, norm p.2))))
  | noDict : Arrives norm (.dict none) (.dict none)
  | noDictEmpty : Arrives norm (.dict none) (.dict (some []))
  | list (l : List Val) : Arrives norm (.list (some l)) (.list (some (l.map norm)))
  | noList : Arrives norm (.list none) (.list none)
  | noListEmpty : Arrives norm (.list none) (.list (some []))

end Wamp.Spec
