import Verif.Model.Validator
/-!
# The texts of the errors for malformed messages

`messages/validator.go` and the `Parse` methods once more, with the texts of the errors they return.
-/
namespace Wamp.ErrorText

/-- Result of a Go call whose error has a text. -/
inductive TRes (α : Type) where
  | ok (a : α)
  | err (text : Str)
  | panic

/-- `strings.Join` and, with a line feed, `errors.Join` -/
def join (sep : Str) : List Str → Str
  | [] => []
  | [a] => a
  | a :: b :: rest => a ++ sep ++ join sep (b :: rest)

/-- `%d` of a natural number. -/
def dec (n : Nat) : Str := str (toString n)

/-- `%T` (package `fmt`): the name of the dynamic type. `types` names those the model does not tell apart. -/
def typeName (types : Nat → Str) : Val → Str
  | .nil => str "<nil>"
  | .bool _ => str "bool"
  | .int .int _ => str "int"
  | .int .i8 _ => str "int8"
  | .int .i16 _ => str "int16"
  | .int .i32 _ => str "int32"
  | .int .i64 _ => str "int64"
  | .uint .uint _ => str "uint"
  | .uint .u8 _ => str "uint8"
  | .uint .u16 _ => str "uint16"
  | .uint .u32 _ => str "uint32"
  | .uint .u64 _ => str "uint64"
  | .f32 _ => str "float32"
  | .f64 _ => str "float64"
  | .str _ => str "string"
  | .named _ => str "auth.Method"
  | .bytes _ => str "[]uint8"
  | .arr _ => str "[]interface {}"
  | .arrNil => str "[]interface {}"
  | .strs _ => str "[]string"
  | .strsNil => str "[]string"
  | .map _ => str "map[string]interface {}"
  | .mapNil => str "map[string]interface {}"
  | .other n => types n

/-- `fmt.Errorf(errString, index, expected, v)` (messages/validator.go:10) -/
def badItem (types : Nat → Str) (i : Nat) (expected : Str) (v : Val) : Str :=
  str "item at index " ++ dec i ++ str " must be of type " ++ expected ++ str " but was " ++ typeName types v

/-- `item, ok := wampMsg[index].(T)` with the error of messages/validator.go:68, 77, 86 or 95. -/
def check {α : Type} (types : Nat → Str) (msg : List Val) (i : Nat) (expected : Str) (as : Val → Option α) (f : α → Fields) : TRes Fields :=
  match msg[i]? with
  | none => .panic
  | some v =>
    match as v with
    | none => .err (badItem types i expected v)
    | some a => .ok (f a)

/-- The validators (messages/validator.go:101-269) with their errors. -/
def validator (types : Nat → Str) (vd : Vd) (msg : List Val) (i : Nat) (f : Fields) : TRes Fields :=
  match vd with
  | .args => if i ≥ msg.length then .ok f else check types msg i (str "[]any") Val.asSlice? fun a => { f with args := a }
  | .sessionID => check types msg i (str "uint64") asUInt64 fun n => { f with sessionID := n }
  | .messageType => check types msg i (str "uint64") asUInt64 fun n => { f with messageType := n }
  | .requestID => check types msg i (str "uint64") asUInt64 fun n => { f with requestID := n }
  | .registrationID => check types msg i (str "uint64") asUInt64 fun n => { f with registrationID := n }
  | .publicationID => check types msg i (str "uint64") asUInt64 fun n => { f with publicationID := n }
  | .subscriptionID => check types msg i (str "uint64") asUInt64 fun n => { f with subscriptionID := n }
  | .signature => check types msg i (str "string") Val.asStr? fun s => { f with signature := s }
  | .uri => check types msg i (str "string") Val.asStr? fun s => { f with uri := s }
  | .realm => check types msg i (str "string") Val.asStr? fun s => { f with realm := s }
  | .authMethod => check types msg i (str "string") Val.asStr? fun s => { f with authMethod := s }
  | .reason => check types msg i (str "string") Val.asStr? fun s => { f with reason := s }
  | .extra => check types msg i (str "map[string]any") Val.asMap? fun m => { f with extra := m }
  | .options => check types msg i (str "map[string]any") Val.asMap? fun m => { f with options := m }
  | .details => check types msg i (str "map[string]any") Val.asMap? fun m => { f with details := m }
  | .kwargs => if i ≥ msg.length then .ok f else check types msg i (str "map[string]any") Val.asMap? fun m => { f with kwargs := m }

/-- The loop of `ValidateMessage` (messages/validator.go:276-289); `errs` are the errors so far. -/
def loop (types : Nat → Str) : List (Nat × Vd) → List Val → Fields → List Str → TRes Fields
  | [], _, f, errs => if errs.length ≠ 0 then .err (join (str "\n") errs) else .ok f
  | (i, vd) :: rest, msg, f, errs =>
    match validator types vd msg i f with
    | .ok f' => loop types rest msg f' errs
    | .err t => loop types rest msg f (errs ++ [t])
    | .panic => .panic

/-- `ValidateMessage` with `sanityCheck` (messages/validator.go:53-63, 271-290); `order` is the order in which Go walks through the table. -/
def validateMessage (types : Nat → Str) (msg : List Val) (min max : Nat) (order : List (Nat × Vd)) : TRes Fields :=
  if msg.length < min then
    .err (str "unexpected message length, must be atleast " ++ dec min ++ str ", was " ++ dec msg.length)
  else if msg.length > max then
    .err (str "unexpected message length, must be atmost " ++ dec max ++ str ", was " ++ dec msg.length)
  else loop types order msg {} []

/-- How the error of each `Parse` begins, and the name it gives the message (the `fmt.Errorf` in each messages/*.go, e.g. abort.go:76). -/
def opening : Kind → Str × Str
  | .hello => (str "hello", str "HELLO")                                  -- hello.go:81
  | .welcome => (str "welcome", str "WELCOME")                            -- welcome.go:53
  | .abort => (str "abort", str "ABORT")                                  -- abort.go:76
  | .challenge => (str "challenge", str "CHALLENGE")                      -- challenge.go:55
  | .authenticate => (str "authenticate", str "AUTHENTICATE")             -- authenticate.go:57
  | .goodbye => (str "goodbye", str "GOODBYE")                            -- goodbye.go:57
  | .error => (str "error", str "ERROR")                                  -- error.go:107
  | .publish => (str "publish", str "PUBLISH")                            -- publish.go:98
  | .published => (str "published", str "PUBLISHED")                      -- published.go:55
  | .subscribe => (str "subscribe", str "SUBSCRIBE")                      -- subscribe.go:70
  | .subscribed => (str "subscribed", str "SUBSCRIBED")                   -- subscribed.go:55
  | .unsubscribe => (str "unregister", str "UNSUBSCRIBE")                 -- unsubscribe.go:55
  | .unsubscribed => (str "unsubscribed", str "UNSUBSCRIBED")             -- unsubscribed.go:48
  | .event => (str "event", str "EVENT")                                  -- event.go:98
  | .call => (str "call", str "CALL")                                     -- call.go:120
  | .cancel => (str "cancel", str "CANCEL")                               -- cancel.go:59
  | .result => (str "result", str "RESULT")                               -- result.go:107
  | .register => (str "registerFields", str "REGISTER")                   -- register.go:66
  | .registered => (str "registered", str "REGISTERED")                   -- registered.go:55
  | .unregister => (str "unregister", str "UNREGISTER")                   -- unregister.go:55
  | .unregistered => (str "unregistered", str "UNREGISTERED")             -- unregistered.go:48
  | .invocation => (str "invocationFields", str "INVOCATION")             -- invocation.go:127
  | .interrupt => (str "interrupt", str "INTERRUPT")                      -- interrupt.go:59
  | .yield => (str "yield", str "YIELD")                                  -- yield.go:107

/-- The error of `AnysToStrings` (util/util.go:127-137): the first element that is not a string; `shown v` is `%v` of `v`. -/
def notAString (shown : Val → Str) : List Val → Str
  | [] => []
  | v :: rest =>
    match v.asStr? with
    | none => str "element " ++ shown v ++ str " is not a string"
    | some _ => notAString shown rest

/-- The `Parse` methods. After validation they are `Wamp.parse`, whose only other error is that of hello.go:99-102. -/
def parse (types : Nat → Str) (shown : Val → Str) (order : List (Nat × Vd)) (k : Kind) (msg : List Val) : TRes Msg :=
  match validateMessage types msg k.vspec.min k.vspec.max order with
  | .panic => .panic
  | .err t => .err ((opening k).1 ++ str ": failed to validate message " ++ (opening k).2 ++ str ": " ++ t)
  | .ok f =>
    match Wamp.parse k msg with
    | .ok m => .ok m
    | .err => .err (str "hello: failed to parse auth methods: " ++ notAString shown (f.details.sliceOrEmpty (str "authmethods")))
    | .panic => .panic

/-- `ToMessage` (serializers/helpers.go:10-71) -/
def toMessage (types : Nat → Str) (shown : Val → Str) (order : Kind → List (Nat × Vd)) (msg : List Val) : TRes Msg :=
  match msg[0]? with
  | none => .panic
  | some v =>
    match kindOfCode ((asUInt64 v).getD 0) with
    | none => .err (str "unknown message " ++ typeName types v)
    | some k =>
      match parse types shown (order k) k msg with
      | .err t => .err (str "invalid message: " ++ t)
      | r => r

/-- `Deserialize` (serializers/json.go:17-33, cbor.go:27-43, msgpack.go:17-33); `library` is the text of the codec library's error.  The second
`Parse` walks through the table in another order. -/
def deserialize (types : Nat → Str) (shown : Val → Str) (order again : Kind → List (Nat × Vd)) (library : Str → Str) (c : Codec) (b : Str) :
    TRes Msg :=
  match c.dec b with
  | none => .err (library b)
  | some raw =>
    match toMessage types shown order raw with
    | .ok m => parse types shown (again m.kind) m.kind raw
    | r => r

end Wamp.ErrorText
