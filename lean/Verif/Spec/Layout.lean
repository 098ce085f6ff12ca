import Verif.Model.Messages
/-!
# The WAMP message layouts

One line per permitted list shape, written directly as list patterns.  `shape k l = some m` says: the decoded list
`l` is a well-formed message of class `k`, and the accessors of the resulting message return the elements at the
positions shown.  Independent of the validation tables of the code.
-/
namespace Wamp.Spec
open Wamp

/-- an identifier position -/
abbrev id? := asUInt64
/-- a string position -/
abbrev text? := Val.asStr?
/-- a dictionary position -/
abbrev dict? := Val.asMap?
/-- a list position -/
abbrev list? := Val.asSlice?

/-- All elements are strings. -/
def texts? (l : List Val) : Option (List Str) := l.mapM Val.asStr?

/-- Element `k` of the details of a HELLO, if it is a dictionary; otherwise the empty one. -/
def subDict (d : GoMap) (k : Str) : GoMap :=
  match d.get k with
  | some (.map m) => some m
  | some .mapNil => none
  | _ => some []

/-- Element `k` of the details of a HELLO, if it is a list; otherwise the empty one. -/
def subList (d : GoMap) (k : Str) : List Val :=
  match d.get k with
  | some (.arr l) => l
  | _ => []

/-- Element `k` of the details of a HELLO, if it is a string; otherwise the empty one. -/
def subText (d : GoMap) (k : Str) : Str :=
  match d.get k with
  | some (.str s) => s
  | _ => []

/-- The permitted list shapes of each message class. -/
def shape : Kind → List Val → Option Msg
  | .hello, [_, realm, det] => do
      let r ← text? realm
      let d ← dict? det
      return .hello r (subText d (str "authid")) (some (← texts? (subList d (str "authmethods"))))
        (subDict d (str "authextra")) (subDict d (str "roles"))
  | .welcome, [_, s, d] => do return .welcome (← id? s) (← dict? d)
  | .abort, [_, d, r] => do return .abort (← dict? d) (← text? r) none none
  | .abort, [_, d, r, a] => do return .abort (← dict? d) (← text? r) (← list? a) none
  | .abort, [_, d, r, a, k] => do return .abort (← dict? d) (← text? r) (← list? a) (← dict? k)
  | .challenge, [_, m, e] => do return .challenge (← text? m) (← dict? e)
  | .authenticate, [_, s, e] => do return .authenticate (← text? s) (← dict? e)
  | .goodbye, [_, d, r] => do return .goodbye (← dict? d) (← text? r)
  | .error, [_, t, r, d, u] => do return .error (← id? t) (← id? r) (← dict? d) (← text? u) none none
  | .error, [_, t, r, d, u, a] => do
      return .error (← id? t) (← id? r) (← dict? d) (← text? u) (← list? a) none
  | .error, [_, t, r, d, u, a, k] => do
      return .error (← id? t) (← id? r) (← dict? d) (← text? u) (← list? a) (← dict? k)
  | .publish, [_, r, o, t] => do return .publish (← id? r) (← dict? o) (← text? t) none none
  | .publish, [_, r, o, t, a] => do return .publish (← id? r) (← dict? o) (← text? t) (← list? a) none
  | .publish, [_, r, o, t, a, k] => do return .publish (← id? r) (← dict? o) (← text? t) (← list? a) (← dict? k)
  | .published, [_, r, p] => do return .published (← id? r) (← id? p)
  | .subscribe, [_, r, o, t] => do return .subscribe (← id? r) (← dict? o) (← text? t)
  | .subscribed, [_, r, s] => do return .subscribed (← id? r) (← id? s)
  | .unsubscribe, [_, r, s] => do return .unsubscribe (← id? r) (← id? s)
  | .unsubscribed, [_, r] => do return .unsubscribed (← id? r)
  | .event, [_, s, p, d] => do return .event (← id? s) (← id? p) (← dict? d) none none
  | .event, [_, s, p, d, a] => do return .event (← id? s) (← id? p) (← dict? d) (← list? a) none
  | .event, [_, s, p, d, a, k] => do return .event (← id? s) (← id? p) (← dict? d) (← list? a) (← dict? k)
  | .call, [_, r, o, p] => do return .call (← id? r) (← dict? o) (← text? p) none none Bin.none
  | .call, [_, r, o, p, a] => do return .call (← id? r) (← dict? o) (← text? p) (← list? a) none Bin.none
  | .call, [_, r, o, p, a, k] => do
      return .call (← id? r) (← dict? o) (← text? p) (← list? a) (← dict? k) Bin.none
  | .cancel, [_, r, o] => do return .cancel (← id? r) (← dict? o)
  | .result, [_, r, d] => do return .result (← id? r) (← dict? d) none none Bin.none
  | .result, [_, r, d, a] => do return .result (← id? r) (← dict? d) (← list? a) none Bin.none
  | .result, [_, r, d, a, k] => do return .result (← id? r) (← dict? d) (← list? a) (← dict? k) Bin.none
  | .register, [_, r, o, p] => do return .register (← id? r) (← dict? o) (← text? p)
  | .registered, [_, r, g] => do return .registered (← id? r) (← id? g)
  | .unregister, [_, r, g] => do return .unregister (← id? r) (← id? g)
  | .unregistered, [_, r] => do return .unregistered (← id? r)
  | .invocation, [_, r, g, d] => do return .invocation (← id? r) (← id? g) (← dict? d) none none Bin.none
  | .invocation, [_, r, g, d, a] => do
      return .invocation (← id? r) (← id? g) (← dict? d) (← list? a) none Bin.none
  | .invocation, [_, r, g, d, a, k] => do
      return .invocation (← id? r) (← id? g) (← dict? d) (← list? a) (← dict? k) Bin.none
  | .interrupt, [_, r, o] => do return .interrupt (← id? r) (← dict? o)
  | .yield, [_, r, o] => do return .yield (← id? r) (← dict? o) none none Bin.none
  | .yield, [_, r, o, a] => do return .yield (← id? r) (← dict? o) (← list? a) none Bin.none
  | .yield, [_, r, o, a, k] => do return .yield (← id? r) (← dict? o) (← list? a) (← dict? k) Bin.none
  | _, _ => none

/-- The 24 WAMP message type codes used by the library, with their classes. -/
def wampCodes : List (Nat × Kind) :=
  [(1, .hello), (2, .welcome), (3, .abort), (4, .challenge), (5, .authenticate), (6, .goodbye), (8, .error),
   (16, .publish), (17, .published), (32, .subscribe), (33, .subscribed), (34, .unsubscribe),
   (35, .unsubscribed), (36, .event), (48, .call), (49, .cancel), (50, .result), (64, .register),
   (65, .registered), (66, .unregister), (67, .unregistered), (68, .invocation), (69, .interrupt), (70, .yield)]

end Wamp.Spec
