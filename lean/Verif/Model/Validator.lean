import Verif.Model.Messages
/-!
# `messages/validator.go`, the `Parse` methods and `serializers/helpers.go`
-/
namespace Wamp

/-- `Fields` (messages/validator.go:23-51), restricted to the fields some validator writes. -/
structure Fields where
  requestID : Nat := 0
  uri : Str := []
  args : GoSlice := none
  kwargs : GoMap := none
  sessionID : Nat := 0
  realm : Str := []
  authMethod : Str := []
  messageType : Nat := 0
  signature : Str := []
  reason : Str := []
  extra : GoMap := none
  options : GoMap := none
  details : GoMap := none
  subscriptionID : Nat := 0
  publicationID : Nat := 0
  registrationID : Nat := 0

/-- The validator functions (messages/validator.go:101-269). -/
inductive Vd where
  | args | sessionID | messageType | requestID | registrationID | publicationID | subscriptionID
  | signature | uri | realm | authMethod | reason | extra | options | details | kwargs
  deriving DecidableEq, Repr

/-- `ValidationSpec` (messages/validator.go:16-21).  The Go field `Spec` is a map from index to validator;
Go visits it in random order, the model in list order (order-independence is a theorem). -/
structure VSpec where
  min : Nat
  max : Nat
  spec : List (Nat × Vd)

/-- `wampMsg[index]`: panics when out of range. -/
def item (msg : List Val) (i : Nat) : Res Val := Res.orPanic msg[i]?

/-- `validateID` (messages/validator.go:65-72) -/
def validateID (msg : List Val) (i : Nat) : Res Nat := (item msg i).bind fun v => Res.ofOption (asUInt64 v)
/-- `validateString` (messages/validator.go:74-81) -/
def validateString (msg : List Val) (i : Nat) : Res Str := (item msg i).bind fun v => Res.ofOption v.asStr?
/-- `validateSlice` (messages/validator.go:83-90) -/
def validateSlice (msg : List Val) (i : Nat) : Res GoSlice := (item msg i).bind fun v => Res.ofOption v.asSlice?
/-- `validateMap` (messages/validator.go:92-99) -/
def validateMap (msg : List Val) (i : Nat) : Res GoMap := (item msg i).bind fun v => Res.ofOption v.asMap?

/-- The individual validators (messages/validator.go:101-269); only args and kwargs tolerate absence. -/
def Vd.run (vd : Vd) (msg : List Val) (i : Nat) (f : Fields) : Res Fields :=
  match vd with
  | .args => if i ≥ msg.length then .ok f                      -- :101-114
             else (validateSlice msg i).map fun a => { f with args := a }
  | .sessionID => (validateID msg i).map fun n => { f with sessionID := n }             -- :116-124
  | .messageType => (validateID msg i).map fun n => { f with messageType := n }         -- :126-134
  | .requestID => (validateID msg i).map fun n => { f with requestID := n }             -- :136-144
  | .registrationID => (validateID msg i).map fun n => { f with registrationID := n }   -- :146-154
  | .publicationID => (validateID msg i).map fun n => { f with publicationID := n }     -- :156-164
  | .subscriptionID => (validateID msg i).map fun n => { f with subscriptionID := n }   -- :166-174
  | .signature => (validateString msg i).map fun s => { f with signature := s }         -- :176-184
  | .uri => (validateString msg i).map fun s => { f with uri := s }                     -- :186-194
  | .realm => (validateString msg i).map fun s => { f with realm := s }                 -- :196-204
  | .authMethod => (validateString msg i).map fun s => { f with authMethod := s }       -- :206-214
  | .reason => (validateString msg i).map fun s => { f with reason := s }               -- :216-224
  | .extra => (validateMap msg i).map fun m => { f with extra := m }                    -- :226-234
  | .options => (validateMap msg i).map fun m => { f with options := m }                -- :236-244
  | .details => (validateMap msg i).map fun m => { f with details := m }                -- :246-254
  | .kwargs => if i ≥ msg.length then .ok f                    -- :256-269
               else (validateMap msg i).map fun m => { f with kwargs := m }

/-- The loop of `ValidateMessage` (messages/validator.go:276-289): errors are collected, not short-circuited;
a panic aborts. -/
def runValidators : List (Nat × Vd) → List Val → Fields → Bool → Res Fields
  | [], _, f, failed => if failed then .err else .ok f
  | (i, vd) :: rest, msg, f, failed =>
    match vd.run msg i f with
    | .ok f' => runValidators rest msg f' failed
    | .err => runValidators rest msg f true
    | .panic => .panic

/-- `ValidateMessage` with `sanityCheck` (messages/validator.go:53-63, 271-290). -/
def validateMessage (msg : List Val) (s : VSpec) : Res Fields :=
  if msg.length < s.min then .err
  else if msg.length > s.max then .err
  else runValidators s.spec msg {} false

/-- The `...ValidationSpec` variable of each messages/*.go file. -/
def Kind.vspec : Kind → VSpec
  | .hello => ⟨2, 3, [(1, .realm), (2, .details)]⟩                                        -- hello.go:12-20
  | .welcome => ⟨3, 3, [(1, .sessionID), (2, .details)]⟩                                  -- welcome.go:8-16
  | .abort => ⟨3, 5, [(1, .details), (2, .reason), (3, .args), (4, .kwargs)]⟩             -- abort.go:8-18
  | .challenge => ⟨3, 3, [(1, .authMethod), (2, .extra)]⟩                                 -- challenge.go:8-16
  | .authenticate => ⟨2, 3, [(1, .signature), (2, .extra)]⟩                               -- authenticate.go:10-18
  | .goodbye => ⟨3, 3, [(1, .details), (2, .reason)]⟩                                     -- goodbye.go:8-16
  | .error => ⟨5, 7, [(1, .messageType), (2, .requestID), (3, .details), (4, .uri), (5, .args), (6, .kwargs)]⟩ -- error.go:8-20
  | .publish => ⟨4, 6, [(1, .requestID), (2, .options), (3, .uri), (4, .args), (5, .kwargs)]⟩ -- publish.go:8-19
  | .published => ⟨3, 3, [(1, .requestID), (2, .publicationID)]⟩                          -- published.go:8-16
  | .subscribe => ⟨4, 4, [(1, .requestID), (2, .options), (3, .uri)]⟩                     -- subscribe.go:8-17
  | .subscribed => ⟨3, 3, [(1, .requestID), (2, .subscriptionID)]⟩                        -- subscribed.go:8-16
  | .unsubscribe => ⟨3, 3, [(1, .requestID), (2, .subscriptionID)]⟩                       -- unsubscribe.go:8-16
  | .unsubscribed => ⟨2, 2, [(1, .requestID)]⟩                                            -- unsubscribed.go:8-15
  | .event => ⟨4, 6, [(1, .subscriptionID), (2, .publicationID), (3, .details), (4, .args), (5, .kwargs)]⟩ -- event.go:8-19
  | .call => ⟨4, 6, [(1, .requestID), (2, .options), (3, .uri), (4, .args), (5, .kwargs)]⟩ -- call.go:8-19
  | .cancel => ⟨3, 3, [(1, .requestID), (2, .options)]⟩                                   -- cancel.go:8-16
  | .result => ⟨3, 5, [(1, .requestID), (2, .details), (3, .args), (4, .kwargs)]⟩         -- result.go:8-18
  | .register => ⟨4, 4, [(1, .requestID), (2, .options), (3, .uri)]⟩                      -- register.go:8-17
  | .registered => ⟨3, 3, [(1, .requestID), (2, .registrationID)]⟩                        -- registered.go:8-16
  | .unregister => ⟨3, 3, [(1, .requestID), (2, .registrationID)]⟩                        -- unregister.go:8-16
  | .unregistered => ⟨2, 2, [(1, .requestID)]⟩                                            -- unregistered.go:8-15
  | .invocation => ⟨4, 6, [(1, .requestID), (2, .registrationID), (3, .details), (4, .args), (5, .kwargs)]⟩ -- invocation.go:10-21
  | .interrupt => ⟨3, 3, [(1, .requestID), (2, .options)]⟩                                -- interrupt.go:8-16
  | .yield => ⟨3, 5, [(1, .requestID), (2, .options), (3, .args), (4, .kwargs)]⟩          -- yield.go:8-18

/-- `x, ok := d[k].([]any); if !ok { x = []any{} }` (messages/hello.go:86-89); a nil slice has no elements. -/
def GoMap.sliceOrEmpty (d : GoMap) (k : Str) : List Val :=
  match (d.get k).bind Val.asSlice? with
  | some l => l.getD []
  | none => []

/-- `x, ok := d[k].(map[string]any); if !ok { x = map[string]any{} }` (messages/hello.go:90-97). -/
def GoMap.mapOrEmpty (d : GoMap) (k : Str) : GoMap :=
  match (d.get k).bind Val.asMap? with
  | some m => m
  | none => some []

/-- The part of `Hello.Parse` after validation (messages/hello.go:84-112): absent or ill-typed details read as
empty, a non-string auth method is an error. -/
def parseHello (f : Fields) : Res Msg :=
  match anysToStrings (f.details.sliceOrEmpty (str "authmethods")) with                  -- :99-102
  | none => .err
  | some ms => .ok (.hello f.realm (f.details.text (str "authid")) (some ms)             -- :104-110
      (f.details.mapOrEmpty (str "authextra")) (f.details.mapOrEmpty (str "roles")))

/-- The `Parse` methods: validation, then copying of the fields. Parsed CALL, RESULT, INVOCATION and YIELD are
never binary. -/
def parse (k : Kind) (msg : List Val) : Res Msg :=
  (validateMessage msg k.vspec).bind fun f =>
    match k with
    | .hello => parseHello f
    | .welcome => .ok (.welcome f.sessionID f.details)                                   -- welcome.go:56
    | .abort => .ok (.abort f.details f.reason f.args f.kwargs)                          -- abort.go:79-84
    | .challenge => .ok (.challenge f.authMethod f.extra)                                -- challenge.go:58
    | .authenticate => .ok (.authenticate f.signature f.extra)                           -- authenticate.go:60-63
    | .goodbye => .ok (.goodbye f.details f.reason)                                      -- goodbye.go:60
    | .error => .ok (.error f.messageType f.requestID f.details f.uri f.args f.kwargs)   -- error.go:110-117
    | .publish => .ok (.publish f.requestID f.options f.uri f.args f.kwargs)             -- publish.go:101-107
    | .published => .ok (.published f.requestID f.publicationID)                         -- published.go:58-61
    | .subscribe => .ok (.subscribe f.requestID f.options f.uri)                         -- subscribe.go:73
    | .subscribed => .ok (.subscribed f.requestID f.subscriptionID)                      -- subscribed.go:58
    | .unsubscribe => .ok (.unsubscribe f.requestID f.subscriptionID)                    -- unsubscribe.go:58
    | .unsubscribed => .ok (.unsubscribed f.requestID)                                   -- unsubscribed.go:51
    | .event => .ok (.event f.subscriptionID f.publicationID f.details f.args f.kwargs)  -- event.go:101-107
    | .call => .ok (.call f.requestID f.options f.uri f.args f.kwargs Bin.none)          -- call.go:123-129
    | .cancel => .ok (.cancel f.requestID f.options)                                     -- cancel.go:62-65
    | .result => .ok (.result f.requestID f.details f.args f.kwargs Bin.none)            -- result.go:110-115
    | .register => .ok (.register f.requestID f.options f.uri)                           -- register.go:69
    | .registered => .ok (.registered f.requestID f.registrationID)                      -- registered.go:58
    | .unregister => .ok (.unregister f.requestID f.registrationID)                      -- unregister.go:58
    | .unregistered => .ok (.unregistered f.requestID)                                   -- unregistered.go:51
    | .invocation => .ok (.invocation f.requestID f.registrationID f.details f.args f.kwargs Bin.none) -- invocation.go:130-136
    | .interrupt => .ok (.interrupt f.requestID f.options)                               -- interrupt.go:62
    | .yield => .ok (.yield f.requestID f.options f.args f.kwargs Bin.none)              -- yield.go:110-115

/-- The `switch messageType` of `ToMessage` (serializers/helpers.go:13-64), in source order. -/
def kindOfCode (n : Nat) : Option Kind :=
  match n with
  | 3 => some .abort | 5 => some .authenticate | 48 => some .call | 49 => some .cancel
  | 4 => some .challenge | 8 => some .error | 36 => some .event | 6 => some .goodbye
  | 1 => some .hello | 69 => some .interrupt | 68 => some .invocation | 16 => some .publish
  | 17 => some .published | 64 => some .register | 65 => some .registered | 50 => some .result
  | 32 => some .subscribe | 33 => some .subscribed | 34 => some .unsubscribe
  | 35 => some .unsubscribed | 66 => some .unregister | 67 => some .unregistered
  | 2 => some .welcome | 70 => some .yield
  | _ => none

/-- `ToMessage` (serializers/helpers.go:10-71): `wampMsg[0]` panics on the empty list; a non-number reads as
type 0, which is unknown. -/
def toMessage (msg : List Val) : Res Msg :=
  (item msg 0).bind fun v =>
    match kindOfCode ((asUInt64 v).getD 0) with
    | none => .err
    | some k => parse k msg

/-- A codec library: `Marshal` of a `[]any` to bytes and `Unmarshal` into `[]any`; `none` is an error. -/
structure Codec where
  enc : List Val → Option Str
  dec : Str → Option (List Val)

/-- `Serialize` of the three serializers (serializers/json.go:13-15, cbor.go:23-25, msgpack.go:13-15). -/
def Codec.serialize (c : Codec) (m : Msg) : Res Str := Res.ofOption (c.enc m.marshal)

/-- `Deserialize` (serializers/json.go:17-33, cbor.go:27-43, msgpack.go:17-33): decode, `ToMessage`, and a second
`Parse` of the same list. -/
def Codec.deserialize (c : Codec) (b : Str) : Res Msg :=
  (Res.ofOption (c.dec b)).bind fun raw =>
    (toMessage raw).bind fun m =>
      parse m.kind raw

end Wamp
