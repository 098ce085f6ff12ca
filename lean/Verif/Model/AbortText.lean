import Verif.Model.Acceptor
/-!
# The error a client gets for an ABORT (joiner.go:143-162)
-/
namespace Wamp.Joiner

/-- `strings.Join` -/
def join (sep : Str) : List Str → Str
  | [] => []
  | [a] => a
  | a :: b :: rest => a ++ sep ++ join sep (b :: rest)

/-- The text of the error (joiner.go:146-160).  `shown v` is `fmt.Sprintf("%v", v)`; `order` is the order in which Go walks through the kwargs. -/
def abortText (shown : Val → Str) (order : List Str) (reason : Str) (args : GoSlice) (kwargs : GoMap) : Str :=
  let a := args.getD []
  let k := kwargs.getD []
  reason ++
  (if 0 < a.length then str ": " ++ join (str ", ") (a.map shown) else []) ++                                  -- :147-153
  (if 0 < k.length then
    str ": " ++ join (str ", ") ((arrange order (k.map Prod.fst)).map fun key => key ++ str "=" ++ shown ((GoMap.get (some k) key).getD .nil))
  else [])                                                                                                     -- :154-160

/-- The text of the error that `ReceiveMessage` returns (joiner.go:143-162).  Simplified: `none` for any other message than ABORT; for those see
`joinerError` in `Model/HandshakeText.lean`. -/
def recvText (shown : Val → Str) (order : List Str) : Msg → Option Str
  | .abort _ reason args kwargs => some (abortText shown order reason args kwargs)
  | _ => none

/-- The text of the error that `Receive` returns (joiner.go:89-98) when the data is an ABORT. -/
def receiveText (shown : Val → Str) (order : List Str) (c : Codec) (data : Str) : Option Str :=
  match c.deserialize data with
  | .ok m => recvText shown order m
  | _ => none

end Wamp.Joiner
