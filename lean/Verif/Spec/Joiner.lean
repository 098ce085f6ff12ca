import Verif.Model.Acceptor
/-!
# Histories of a joiner
-/
namespace Wamp.Joiner

/-- What happened on a joiner: `SendHello` was called (and succeeded or not), or a message was received. -/
inductive Event where
  | hello (res : Res Str)
  | received (m : Msg) (res : Res (Option Msg))

/-- `Hist realm static h s`: `h` (newest first) is what happened on a new joiner, which is now in state `s`. The codec and
the client authenticator are arbitrary in every call. -/
inductive Hist (realm : Str) (static : Bool) : List Event → State → Prop where
  | new : Hist realm static [] (init realm static)
  | hello {h s} (c : Codec) (a : Auth) : Hist realm static h s →
      Hist realm static (.hello (sendHello c a s).2 :: h) (sendHello c a s).1
  | recv {h s} (a : Auth) (m : Msg) : Hist realm static h s →
      Hist realm static (.received m (recv a s m).2 :: h) (recv a s m).1

/-- `SendHello` succeeded. -/
def Event.sent : Event → Prop
  | .hello (.ok _) => True
  | _ => False
/-- A message of this class was accepted. -/
def Event.accepted (e : Event) (k : Kind) : Prop := ∃ m r, e = .received m (.ok r) ∧ m.kind = k

/-- Since the last successful `SendHello` no WELCOME was accepted. -/
def Joining (h : List Event) : Prop :=
  ∃ h1 e h2, h = h1 ++ e :: h2 ∧ e.sent ∧ ∀ x ∈ h1, ¬ x.sent ∧ ¬ x.accepted .welcome
/-- Since the last successful `SendHello` neither a WELCOME nor a CHALLENGE was accepted. -/
def Fresh (h : List Event) : Prop :=
  ∃ h1 e h2, h = h1 ++ e :: h2 ∧ e.sent ∧ ∀ x ∈ h1, ¬ x.sent ∧ ¬ x.accepted .welcome ∧ ¬ x.accepted .challenge

/-- Details contain this text under this key. -/
def HasText (d : GoMap) (k : Str) (t : Str) : Prop := d.get k = some (.str t)

end Wamp.Joiner
