import Verif.Spec.Foreign
import Verif.Spec.AsNew
/-!
# What a router may look at

`outline` takes a message and leaves out what applications put into it and the options that the router does not know.
-/
namespace Wamp

/-- The option `k`, if it is set to true. -/
def onlyFlag (k : String) (o : GoMap) : Dict := if o.flag (str k) then [(str k, .bool true)] else []

/-- The option `k`, if it is a text other than the empty one, and one of `vs` unless `vs` is empty. -/
def onlyText (k : String) (vs : List String) (o : GoMap) : Dict :=
  let t := o.text (str k)
  if t ≠ [] ∧ (vs = [] ∨ t ∈ vs.map str) then [(str k, .str t)] else []

/-- The message without arguments, keyword arguments and bytes of the application, without the details that a callee puts into an ERROR, and
with no options but those that the router knows: `acknowledge` of PUBLISH; `match` of SUBSCRIBE and REGISTER, if it is "prefix" or "wildcard";
`invoke` of REGISTER; `progress` and `receive_progress` of CALL; `progress` of YIELD.  Whether the content is in bytes, and which serializer ID
it has, stays. -/
def Msg.outline : Msg → Msg
  | .publish r o t _ _ => .publish r (some (onlyFlag "acknowledge" o)) t none none
  | .subscribe r o t => .subscribe r (some (onlyText "match" ["prefix", "wildcard"] o)) t
  | .register r o p => .register r (some (onlyText "match" ["prefix", "wildcard"] o ++ onlyText "invoke" [] o)) p
  | .call r o p _ _ b => .call r (some (onlyFlag "progress" o ++ onlyFlag "receive_progress" o)) p none none { b with payload := [] }
  | .yield r o _ _ b => .yield r (some (onlyFlag "progress" o)) none none { b with payload := [] }
  | .error t r _ u _ _ => .error t r (some []) u none none
  | .event i n d _ _ => .event i n d none none
  | .invocation i g d _ _ b => .invocation i g d none none { b with payload := [] }
  | .result r d _ _ b => .result r d none none { b with payload := [] }
  | m => m

end Wamp

namespace Wamp.Broker

/-- The call with the outline of its message. -/
def Op.outline : Op → Op
  | .receive s m => .receive s m.outline
  | .publish s q o t _ _ wo so => .publish s q (some (onlyFlag "acknowledge" o)) t none none wo so
  | op => op

/-- The result with the outlines of the messages. -/
def Out.outline : Out → Out
  | .msg m s => .msg m.outline s
  | .pub p => .pub ⟨p.event.map Msg.outline, p.recipients, p.ack.map fun x => (x.1.outline, x.2)⟩
  | o => o

/-- The call and its result in outline. -/
def Event.outline (e : Event) : Event := ⟨e.op.outline, e.res.map Out.outline⟩

end Wamp.Broker

namespace Wamp.Dealer

/-- The call with the outline of its message. -/
def Op.outline : Op → Op
  | .receive s m order rnd => .receive s m.outline order rnd
  | op => op

/-- The result with the outline of the message. -/
def Out.outline : Out → Out
  | .msg m s => .msg m.outline s
  | o => o

/-- The call and its result in outline. -/
def Event.outline (e : Event) : Event := ⟨e.op.outline, e.res.map Out.outline⟩

end Wamp.Dealer

namespace Wamp.System
open Wamp

/-- What happens, with the outlines of the messages. -/
def Move.outline : Move → Move
  | .act (.send s _ m) => .act (.send s [] m.outline)
  | .inject s m => .inject s m.outline
  | v => v

/-- The system with the outlines of all messages; the broker, the dealer and the sessions of the clients are as they are. -/
def Sys.outline (x : Sys) : Sys :=
  { x with
    up := fun s => (x.up s).map Msg.outline
    down := fun s => (x.down s).map Msg.outline
    sent := fun s => (x.sent s).map Msg.outline
    bh := x.bh.map Broker.Event.outline
    dh := x.dh.map Dealer.Event.outline }

/-- The system, and what clients have taken, with the outlines of all messages. -/
def Log.outline (l : Log) : Log := ⟨l.sys.outline, fun s => (l.got s).map Msg.outline⟩

end Wamp.System
