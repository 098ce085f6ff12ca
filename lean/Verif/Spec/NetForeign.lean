import Verif.Spec.Net
/-!
# A router, its clients, and others that write any bytes

The system of Spec/Net, in which some clients do not use this library: they write any bytes they like on their connection, whenever they like,
and read what they like.
-/
namespace Wamp.Net
open Wamp Wamp.System

/-- What can happen; `F s`: client `s` is foreign.  The bytes of a foreign client need not be frames, what is in a frame need not be a message, and
the message need not be one that a client sends.  The router drops what its serializer for the session does not read.  What a foreign client has `sent`
are the messages that the router has read from it. -/
inductive OpenStep (w : Str → Str → Bool) (c : Nat → Codec) (Fit : Nat → Msg → Prop) (F : Nat → Bool) : Net → Net → Prop
  /-- A session joins or leaves or disclosure is switched. -/
  | admin {n : Net} {y : Sys} (a : Action) (ha : (∃ d, a = .join d) ∨ (∃ s o o', a = .leave s o o') ∨ ∃ p q, a = .disclose p q) :
      n.core.act w a = some y → OpenStep w c Fit F n { n with core := y }
  /-- A client of this library sends a message: its `Session` serializes it and lets it through. -/
  | send {n : Net} {y : Sys} (s : Nat) (m : Msg) (b : Str) : F s = false → (c s).serialize m = .ok b → Fit s m → n.core.act w (.send s b m) = some y →
      OpenStep w c Fit F n { n with core := Sys.emptied y, upWay := upd n.upWay s (n.upWay s ++ frame b) }
  /-- A foreign client that has joined writes any bytes. -/
  | write {n : Net} (s : Nat) (bytes : Str) : F s = true → s ∈ n.core.joined →
      OpenStep w c Fit F n { n with upWay := upd n.upWay s (n.upWay s ++ bytes) }
  /-- Some bytes reach the router. -/
  | upArrive {n : Net} (s : Nat) (a b : Str) : n.upWay s = a ++ b →
      OpenStep w c Fit F n { n with upWay := upd n.upWay s b, upBuf := upd n.upBuf s (n.upBuf s ++ a) }
  /-- The router reads the next frame of a client, handles the message, and writes what is to be sent to each session. -/
  | route {n : Net} {y : Sys} (s : Nat) (wcOrder : List Str) (subOrder : List Nat) (rnd : Nat) (p rest : Str) (m : Msg) (out : Nat → Str) :
      readFrame (n.upBuf s) = some (p, rest) → (c s).deserialize p = .ok m →
      Sys.act w { n.core with up := upd n.core.up s [m], sent := if F s then upd n.core.sent s (m :: n.core.sent s) else n.core.sent }
        (.route s wcOrder subOrder rnd) = some y →
      (∀ s' m', m' ∈ y.down s' → Fit s' m') → (∀ s', Written (c s') (y.down s') (out s')) →
      OpenStep w c Fit F n { n with core := Sys.emptied y, upBuf := upd n.upBuf s rest, downWay := fun s' => n.downWay s' ++ out s' }
  /-- The router drops a frame that its serializer for the session does not read. -/
  | drop {n : Net} (s : Nat) (p rest : Str) : readFrame (n.upBuf s) = some (p, rest) → (c s).deserialize p = .err →
      OpenStep w c Fit F n { n with upBuf := upd n.upBuf s rest }
  /-- Some bytes reach a client. -/
  | downArrive {n : Net} (s : Nat) (a b : Str) : n.downWay s = a ++ b →
      OpenStep w c Fit F n { n with downWay := upd n.downWay s b, downBuf := upd n.downBuf s (n.downBuf s ++ a) }
  /-- A client of this library reads the next frame and hands it to its `Session`. -/
  | deliver {n : Net} {y : Sys} (s : Nat) (p rest : Str) (m : Msg) : F s = false →
      readFrame (n.downBuf s) = some (p, rest) → (c s).deserialize p = .ok m →
      Sys.act w { n.core with down := upd n.core.down s [m] } (.deliver s) = some y →
      OpenStep w c Fit F n { n with core := Sys.emptied y, downBuf := upd n.downBuf s rest, got := upd n.got s (n.got s ++ [m]) }
  /-- A foreign client reads some bytes. -/
  | take {n : Net} (s : Nat) (a b : Str) : F s = true → n.downBuf s = a ++ b → OpenStep w c Fit F n { n with downBuf := upd n.downBuf s b }

/-- Every state that some sequence of steps leads to. -/
inductive OpenReach (w : Str → Str → Bool) (c : Nat → Codec) (Fit : Nat → Msg → Prop) (F : Nat → Bool) : Net → Prop
  | new : OpenReach w c Fit F Net.new
  | step {n n' : Net} : OpenReach w c Fit F n → OpenStep w c Fit F n n' → OpenReach w c Fit F n'

end Wamp.Net
