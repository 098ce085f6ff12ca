import Verif.Spec.AsNew
import Verif.Spec.Acceptor
import Verif.Spec.Joiner
/-!
# Refused messages
-/
namespace Wamp

/-- The dealer refuses a call: it returns an error, or answers the message with an ERROR.  (An ERROR that it was given, from a callee,
is passed on.) -/
def Dealer.refused : Dealer.Op → Res Dealer.Out → Prop
  | _, .err => True
  | .receive _ (.error ..) _ _, _ => False
  | _, .ok (.msg (.error ..) _) => True
  | _, _ => False

/-- What is seen of an acceptor that is given messages one after the other (each with what the call gets from outside): every time, what is
returned, what the authenticator is asked, and the session details afterwards. -/
def Acceptor.seen (cr : Crypto) (s : State) : List (Env × Msg) → List (Res Msg × Option (AuthReq × AuthOut) × Res SessionDetails)
  | [] => []
  | (env, m) :: rest =>
    let o := recv cr env s m
    (o.res, o.asked, sessionDetails o.state) :: seen cr o.state rest

/-- The acceptor refuses: it returns an error or an ABORT. -/
def Acceptor.refused : Res Msg → Prop
  | .err => True
  | .ok m => m.kind = .abort
  | .panic => False

namespace Joiner

/-- A call of a method of a joiner: `SendHello`, or `ReceiveMessage`, with the authenticator. -/
inductive Call where
  | hello (c : Codec) (a : Auth)
  | recv (a : Auth) (m : Msg)

/-- What a call returns. -/
inductive Reply where
  | bytes (r : Res Str)
  | msg (r : Res (Option Msg))

/-- Execute a call. -/
def Call.run (s : State) : Call → State × Reply
  | .hello c a => ((sendHello c a s).1, .bytes (sendHello c a s).2)
  | .recv a m => ((Joiner.recv a s m).1, .msg (Joiner.recv a s m).2)

/-- What is seen of a joiner: every time, what is returned, and the session details afterwards. -/
def seen (s : State) : List Call → List (Reply × Res SessionDetails)
  | [] => []
  | c :: rest => ((c.run s).2, sessionDetails (c.run s).1) :: seen (c.run s).1 rest

/-- An error. -/
def Reply.refused : Reply → Prop
  | .bytes r => r = .err
  | .msg r => r = .err

end Joiner
end Wamp
