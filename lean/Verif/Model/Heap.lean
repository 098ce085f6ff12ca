import Verif.Model.Accessors
import Verif.Model.Auth
/-!
# Constructors that write into the caller's map

Elsewhere in the model a `map[string]any` is its contents.  In Go it is a reference, and `NewCallBinary`, `NewResultBinary`,
`NewInvocationBinary`, `NewYieldBinary` and `NewCryptoSignAuthenticator` write into the map they are given.  Here the maps that are passed
as options, details, extra, roles and kwargs live in a heap; what is inside them (and in args) is still contents, since the constructors do
not write there.
-/
namespace Wamp.Heap

/-- The maps allocated so far; the reference of a map is its index. -/
abbrev Heap := List Dict
/-- A `map[string]any`: nil or a reference. -/
abbrev Ref := Option Nat

/-- The contents of a map. -/
def load (h : Heap) : Ref → GoMap
  | none => none
  | some a => h[a]?

/-- `m[k] = v` -/
def store (h : Heap) (a : Nat) (k : Str) (v : Val) : Heap := h.modify a (dset · k v)

/-- `if m == nil { m = make(map[string]any) }` (e.g. messages/call.go:80-82) -/
def make (h : Heap) : Ref → Heap × Nat
  | none => (h ++ [[]], h.length)
  | some a => (h, a)

/-- The nil check and `m["x_payload_serializer"] = serializer` (messages/call.go:97-101, result.go:85-89, invocation.go:103-107,
yield.go:85-89). -/
def makeBinary (h : Heap) (r : Ref) (serializer : Nat) : Heap × Nat :=
  let (h, a) := make h r
  (store h a (str "x_payload_serializer") (.u64 serializer), a)

/-- A message as its fields hold it: with references to maps, so that what its accessors return depends on the heap. -/
abbrev HMsg := Heap → Msg

/-- Runs a constructor: the heap afterwards and the message (lines as in Model/Messages). -/
def run (h : Heap) : Build Ref → Heap × HMsg
  | .hello r i x o m => (h, fun h => .hello r i m (load h x) (load h o))
  | .welcome s d => (h, fun h => .welcome s (load h d))
  | .abort d r a k => let (h, d) := make h d; (h, fun h => .abort (load h (some d)) r a (load h k))
  | .challenge m e => (h, fun h => .challenge m (load h e))
  | .authenticate s e => (h, fun h => .authenticate s (load h e))
  | .goodbye r d => let (h, d) := make h d; (h, fun h => .goodbye (load h (some d)) r)
  | .error t r d u a k => let (h, d) := make h d; (h, fun h => .error t r (load h (some d)) u a (load h k))
  | .publish r o t a k => let (h, o) := make h o; (h, fun h => .publish r (load h (some o)) t a (load h k))
  | .published r p => (h, fun _ => .published r p)
  | .subscribe r o t => let (h, o) := make h o; (h, fun h => .subscribe r (load h (some o)) t)
  | .subscribed r s => (h, fun _ => .subscribed r s)
  | .unsubscribe r s => (h, fun _ => .unsubscribe r s)
  | .unsubscribed r => (h, fun _ => .unsubscribed r)
  | .event s p d a k => let (h, d) := make h d; (h, fun h => .event s p (load h (some d)) a (load h k))
  | .call r o p a k => let (h, o) := make h o; (h, fun h => .call r (load h (some o)) p a (load h k) Bin.none)
  | .callBinary r o p b s => let (h, o) := makeBinary h o s; (h, fun h => .call r (load h (some o)) p none none ⟨true, s, b⟩)
  | .cancel r o => let (h, o) := make h o; (h, fun h => .cancel r (load h (some o)))
  | .result r d a k => let (h, d) := make h d; (h, fun h => .result r (load h (some d)) a (load h k) Bin.none)
  | .resultBinary r d b s => let (h, d) := makeBinary h d s; (h, fun h => .result r (load h (some d)) none none ⟨true, s, b⟩)
  | .register r o p => let (h, o) := make h o; (h, fun h => .register r (load h (some o)) p)
  | .registered r g => (h, fun _ => .registered r g)
  | .unregister r g => (h, fun _ => .unregister r g)
  | .unregistered r => (h, fun _ => .unregistered r)
  | .invocation r g d a k => let (h, d) := make h d; (h, fun h => .invocation r g (load h (some d)) a (load h k) Bin.none)
  | .invocationBinary r g d b s => let (h, d) := makeBinary h d s; (h, fun h => .invocation r g (load h (some d)) none none ⟨true, s, b⟩)
  | .interrupt r o => let (h, o) := make h o; (h, fun h => .interrupt r (load h (some o)))
  | .yield r o a k => let (h, o) := make h o; (h, fun h => .yield r (load h (some o)) a (load h k) Bin.none)
  | .yieldBinary r o b s => let (h, o) := makeBinary h o s; (h, fun h => .yield r (load h (some o)) none none ⟨true, s, b⟩)

/-- One constructor after the other. -/
def runAll (h : Heap) : List (Build Ref) → Heap
  | [] => h
  | b :: bs => runAll (run h b).1 bs

/-- `NewCryptoSignAuthenticator` (auth/cryptosign.go:24-53): the heap afterwards and, unless it fails, the authenticator: its authid, its
map of extra and its key. -/
def newCryptoSign (cr : Crypto) (h : Heap) (authID privateKeyHex : Str) (authExtra : Ref) : Heap × Res (Str × Nat × Str) :=
  match hexDecode privateKeyHex with
  | none => (h, .err)
  | some raw =>
    if raw.length ≠ 32 then (h, .panic)
    else
      let publicKeyHex := hexEncode (cr.pubOfSeed raw)
      let (h, a) := make h authExtra
      match (((load h (some a)).get (str "pubkey"))).getD .nil with
      | .nil => (store h a (str "pubkey") (.str publicKeyHex), .ok (authID, a, raw))
      | .str val => if val ≠ publicKeyHex then (h, .err) else (h, .ok (authID, a, raw))
      | _ => (h, .ok (authID, a, raw))

end Wamp.Heap
