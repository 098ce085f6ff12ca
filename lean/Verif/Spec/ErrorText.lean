import Verif.Model.Value
import Verif.Model.Util
import Verif.Model.Messages
/-!
# What the error for a malformed message should say
-/
namespace Wamp.Spec.Err

/-- What belongs in a position of a message. -/
inductive Want where
  | id | text | list | dict
  deriving DecidableEq

/-- The value is such. -/
def Want.fits : Want → Val → Bool
  | .id, v => (asUInt64 v).isSome
  | .text, v => v.asStr?.isSome
  | .list, v => v.asSlice?.isSome
  | .dict, v => v.asMap?.isSome

/-- What it is called. -/
def Want.name : Want → Str
  | .id => str "uint64"
  | .text => str "string"
  | .list => str "[]any"
  | .dict => str "map[string]any"

/-- The elements of each class of message after its type code, and how many of them, at the end, may be missing. -/
def layout : Kind → List Want × Nat
  | .hello => ([.text, .dict], 0)
  | .welcome => ([.id, .dict], 0)
  | .abort => ([.dict, .text, .list, .dict], 2)
  | .challenge => ([.text, .dict], 0)
  | .authenticate => ([.text, .dict], 0)
  | .goodbye => ([.dict, .text], 0)
  | .error => ([.id, .id, .dict, .text, .list, .dict], 2)
  | .publish => ([.id, .dict, .text, .list, .dict], 2)
  | .published => ([.id, .id], 0)
  | .subscribe => ([.id, .dict, .text], 0)
  | .subscribed => ([.id, .id], 0)
  | .unsubscribe => ([.id, .id], 0)
  | .unsubscribed => ([.id], 0)
  | .event => ([.id, .id, .dict, .list, .dict], 2)
  | .call => ([.id, .dict, .text, .list, .dict], 2)
  | .cancel => ([.id, .dict], 0)
  | .result => ([.id, .dict, .list, .dict], 2)
  | .register => ([.id, .dict, .text], 0)
  | .registered => ([.id, .id], 0)
  | .unregister => ([.id, .id], 0)
  | .unregistered => ([.id], 0)
  | .invocation => ([.id, .id, .dict, .list, .dict], 2)
  | .interrupt => ([.id, .dict], 0)
  | .yield => ([.id, .dict, .list, .dict], 2)

/-- The name of each class. -/
def name : Kind → String
  | .hello => "HELLO" | .welcome => "WELCOME" | .abort => "ABORT" | .challenge => "CHALLENGE" | .authenticate => "AUTHENTICATE"
  | .goodbye => "GOODBYE" | .error => "ERROR" | .publish => "PUBLISH" | .published => "PUBLISHED" | .subscribe => "SUBSCRIBE"
  | .subscribed => "SUBSCRIBED" | .unsubscribe => "UNSUBSCRIBE" | .unsubscribed => "UNSUBSCRIBED" | .event => "EVENT"
  | .call => "CALL" | .cancel => "CANCEL" | .result => "RESULT" | .register => "REGISTER" | .registered => "REGISTERED"
  | .unregister => "UNREGISTER" | .unregistered => "UNREGISTERED" | .invocation => "INVOCATION" | .interrupt => "INTERRUPT"
  | .yield => "YIELD"

/-- The same in lower case. -/
def lower (s : String) : Str := (str s).map fun c => c + 32

/-- The error begins with the class's own name. The three classes for which it does not are left out. -/
def OwnName (k : Kind) (first : Str) : Prop :=
  k ≠ .unsubscribe → k ≠ .register → k ≠ .invocation → first = lower (name k)

/-- The elements that do not fit, with their positions: `ws` belongs in the positions from `i` on, `vs` is there. -/
def misfits (i : Nat) : List Want → List Val → List (Nat × Want × Val)
  | w :: ws, v :: vs => if w.fits v then misfits (i + 1) ws vs else (i, w, v) :: misfits (i + 1) ws vs
  | _, _ => []

/-- The elements of a message of class `k` that do not fit. -/
def wrong (k : Kind) (l : List Val) : List (Nat × Want × Val) := misfits 1 (layout k).1 l.tail

/-- The number of elements is one that the class allows. -/
def RightLength (k : Kind) (l : List Val) : Prop :=
  1 + (layout k).1.length ≤ l.length + (layout k).2 ∧ l.length ≤ 1 + (layout k).1.length

/-- The name of a value's Go type. -/
def goType (types : Nat → Str) : Val → Str
  | .nil => str "<nil>"
  | .bool _ => str "bool"
  | .int k _ => match k with
    | .int => str "int" | .i8 => str "int8" | .i16 => str "int16" | .i32 => str "int32" | .i64 => str "int64"
  | .uint k _ => match k with
    | .uint => str "uint" | .u8 => str "uint8" | .u16 => str "uint16" | .u32 => str "uint32" | .u64 => str "uint64"
  | .f32 _ => str "float32"
  | .f64 _ => str "float64"
  | .str _ => str "string"
  | .named _ => str "auth.Method"
  | .bytes _ => str "[]uint8"
  | .arr _ | .arrNil => str "[]interface {}"
  | .strs _ | .strsNil => str "[]string"
  | .map _ | .mapNil => str "map[string]interface {}"
  | .other n => types n

/-- The line about one element: its position, what belongs there, and the type of what is there. -/
def line (types : Nat → Str) (p : Nat × Want × Val) : Str :=
  str s!"item at index {p.1} must be of type " ++ p.2.1.name ++ str " but was " ++ goType types p.2.2

/-- `t` consists of these lines. -/
inductive Lines : List Str → Str → Prop where
  | one (a : Str) : Lines [a] a
  | more (a : Str) (rest : List Str) (t : Str) : Lines rest t → Lines (a :: rest) (a ++ [10] ++ t)

end Wamp.Spec.Err
