import Verif.Spec.System
import Verif.Spec.Frames
/-!
# A router and its clients, connected by byte streams

The same as Spec/System, but what travels between a client and the router are bytes: every message is serialized, put into a raw socket
frame, and the bytes arrive in order, in pieces of any size.  Every session has a serializer of its own.
-/
namespace Wamp.Net
open Wamp Wamp.System

/-- One frame of a regular message. -/
def frame (b : Str) : Str := RawSocket.sendMessageHeader ⟨0, b.length⟩ ++ b

/-- The first frame of the bytes that have arrived, if it is complete: its payload and the bytes after it. -/
def readFrame (s : Str) : Option (Str × Str) :=
  if s.length < 4 then none
  else
    match RawSocket.receiveMessageHeader (s.take 4) with
    | .ok h =>
      if (s.drop 4).length < h.length then none
      else some ((s.drop 4).take h.length.toNat, (s.drop 4).drop h.length.toNat)
    | _ => none

/-- Broker, dealer, the clients' `Session`s and the rest as in Spec/System; the links of `core` are used within an action only and are
empty otherwise.  Bytes to the router that are under way and that have arrived, and bytes from the router; what each client has read, oldest
first. -/
structure Net where
  core : Sys
  upWay : Nat → Str
  upBuf : Nat → Str
  downWay : Nat → Str
  downBuf : Nat → Str
  got : Nat → List Msg

/-- Nothing has happened. -/
def Net.new : Net := ⟨Sys.new, fun _ => [], fun _ => [], fun _ => [], fun _ => [], fun _ => []⟩

/-- Nothing in the links of `core`. -/
def Sys.emptied (x : Sys) : Sys := { x with up := fun _ => [], down := fun _ => [] }

/-- The messages serialized and framed, one after the other. -/
inductive Written (c : Codec) : List Msg → Str → Prop
  | nil : Written c [] []
  | cons {m l b s} : c.serialize m = .ok b → Written c l s → Written c (m :: l) (frame b ++ s)

/-- What can happen.  `c s` is the serializer of session `s`; `Fit s m`: message `m` is within the limits of that serializer. -/
inductive Step (w : Str → Str → Bool) (c : Nat → Codec) (Fit : Nat → Msg → Prop) : Net → Net → Prop
  /-- A session joins or leaves or disclosure is switched. -/
  | admin {n : Net} {y : Sys} (a : Action) (ha : (∃ d, a = .join d) ∨ (∃ s o o', a = .leave s o o') ∨ ∃ p q, a = .disclose p q) :
      n.core.act w a = some y → Step w c Fit n { n with core := y }
  /-- A client sends a message: its `Session` serializes it and lets it through. -/
  | send {n : Net} {y : Sys} (s : Nat) (m : Msg) (b : Str) : (c s).serialize m = .ok b → Fit s m → n.core.act w (.send s b m) = some y →
      Step w c Fit n { n with core := Sys.emptied y, upWay := upd n.upWay s (n.upWay s ++ frame b) }
  /-- Some bytes reach the router. -/
  | upArrive {n : Net} (s : Nat) (a b : Str) : n.upWay s = a ++ b →
      Step w c Fit n { n with upWay := upd n.upWay s b, upBuf := upd n.upBuf s (n.upBuf s ++ a) }
  /-- The router reads the next frame of a client, handles the message, and writes what is to be sent to each session. -/
  | route {n : Net} {y : Sys} (s : Nat) (wcOrder : List Str) (subOrder : List Nat) (rnd : Nat) (p rest : Str) (m : Msg) (out : Nat → Str) :
      readFrame (n.upBuf s) = some (p, rest) → (c s).deserialize p = .ok m →
      Sys.act w { n.core with up := upd n.core.up s [m] } (.route s wcOrder subOrder rnd) = some y →
      (∀ s' m', m' ∈ y.down s' → Fit s' m') → (∀ s', Written (c s') (y.down s') (out s')) →
      Step w c Fit n { n with core := Sys.emptied y, upBuf := upd n.upBuf s rest, downWay := fun s' => n.downWay s' ++ out s' }
  /-- Some bytes reach a client. -/
  | downArrive {n : Net} (s : Nat) (a b : Str) : n.downWay s = a ++ b →
      Step w c Fit n { n with downWay := upd n.downWay s b, downBuf := upd n.downBuf s (n.downBuf s ++ a) }
  /-- A client reads the next frame and hands it to its `Session`. -/
  | deliver {n : Net} {y : Sys} (s : Nat) (p rest : Str) (m : Msg) :
      readFrame (n.downBuf s) = some (p, rest) → (c s).deserialize p = .ok m →
      Sys.act w { n.core with down := upd n.core.down s [m] } (.deliver s) = some y →
      Step w c Fit n { n with core := Sys.emptied y, downBuf := upd n.downBuf s rest, got := upd n.got s (n.got s ++ [m]) }

/-- Every state that some sequence of steps leads to. -/
inductive Reach (w : Str → Str → Bool) (c : Nat → Codec) (Fit : Nat → Msg → Prop) : Net → Prop
  | new : Reach w c Fit Net.new
  | step {n n' : Net} : Reach w c Fit n → Step w c Fit n n' → Reach w c Fit n'

end Wamp.Net
