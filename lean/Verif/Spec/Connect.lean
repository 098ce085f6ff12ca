import Verif.Spec.Handshake
import Verif.Spec.Net
import Verif.Model.Payload
/-!
# A connection from its first byte

A client connects to a router over a raw socket.  It sends its handshake; when the router's handshake has arrived it says hello and then lets its `Joiner` answer every
frame.  The router answers the handshake with its own and then lets an `Acceptor` answer every frame, until it welcomes the client.  Whoever gets an error gives up.  Bytes
arrive in order, in pieces of any size, at any time.  (This is how the library is meant to be used; the code that reads and writes sockets is the user's.)
-/
namespace Wamp.Connect
open Wamp

/-- What does not change during the connection.  `env i` are the circumstances of the acceptor's call number `i`. -/
structure Setup where
  cr : Crypto
  codecs : Codecs
  f2i : GoFloat → Int
  /-- The serializer the client wants, and the largest messages each of the two takes. -/
  serializer : Int
  clientMax : Int
  routerMax : Int
  auth : Joiner.Auth
  realm : Str
  env : Nat → Acceptor.Env

/-- The serializers by their numbers in the handshake (transports/rawsocket.go:14-16). -/
def Setup.codec (u : Setup) (n : Int) : Option Codec :=
  if n = 1 then some u.codecs.json else if n = 2 then some u.codecs.msgpack else if n = 3 then some u.codecs.cbor else none

inductive Client where
  /-- The handshake is sent. -/
  | greeting
  | joining (c : Codec) (s : Joiner.State)
  | joined (s : Joiner.State)
  | closed

inductive Router where
  | listening
  /-- `i` calls of the acceptor so far. -/
  | accepting (c : Codec) (i : Nat) (s : Acceptor.State)
  | welcomed (s : Acceptor.State)
  | closed

/-- The client reads what has arrived, if it is enough: its new state, the bytes it has not read, the bytes it writes. -/
def Client.read (u : Setup) : Client → Str → Option (Client × Str × Str)
  | .greeting, buf =>
    if buf.length < 4 then none
    else
      match RawSocket.receiveHandshake (buf.take 4), u.codec u.serializer with
      | .ok h, some c =>
        if h.serializer = u.serializer then
          match Joiner.sendHello c u.auth (Joiner.init u.realm false) with
          | (s, .ok p) => some (.joining c s, buf.drop 4, Net.frame p)
          | _ => some (.closed, buf.drop 4, [])
        else some (.closed, buf.drop 4, [])
      | _, _ => some (.closed, buf.drop 4, [])
  | .joining c s, buf =>
    match Net.readFrame buf with
    | none => none
    | some (p, rest) =>
      match Joiner.receive c u.auth s p with
      | (s', .ok none) => some (.joined s', rest, [])
      | (s', .ok (some p')) => some (.joining c s', rest, Net.frame p')
      | _ => some (.closed, rest, [])
  | .joined _, _ => none
  | .closed, _ => none

/-- The same for the router. -/
def Router.read (u : Setup) : Router → Str → Option (Router × Str × Str)
  | .listening, buf =>
    if buf.length < 4 then none
    else
      match RawSocket.receiveHandshake (buf.take 4) with
      | .ok h =>
        match u.codec h.serializer, RawSocket.sendHandshake u.f2i ⟨h.serializer, u.routerMax⟩ with
        | some c, .ok b => some (.accepting c 0 (Acceptor.init false), buf.drop 4, b)
        | _, _ => some (.closed, buf.drop 4, [])
      | _ => some (.closed, buf.drop 4, [])
  | .accepting c i s, buf =>
    match Net.readFrame buf with
    | none => none
    | some (p, rest) =>
      match Acceptor.receive u.cr c (u.env i) s p with
      | (s', .ok (p', true)) => some (.welcomed s', rest, Net.frame p')
      | (s', .ok (p', false)) => some (.accepting c (i + 1) s', rest, Net.frame p')
      | _ => some (.closed, rest, [])
  | .welcomed _, _ => none
  | .closed, _ => none

/-- Both ends, and in each direction the bytes under way and the bytes that have arrived but are not read. -/
structure Conn where
  client : Client
  router : Router
  upWay : Str
  upBuf : Str
  downWay : Str
  downBuf : Str

/-- The client has connected and written its handshake. -/
def start (u : Setup) : Option Conn :=
  match RawSocket.sendHandshake u.f2i ⟨u.serializer, u.clientMax⟩ with
  | .ok b => some ⟨.greeting, .listening, b, [], [], []⟩
  | _ => none

/-- What can happen. -/
inductive Step (u : Setup) : Conn → Conn → Prop
  /-- Some bytes reach the router. -/
  | up {x : Conn} (a b : Str) : a ≠ [] → x.upWay = a ++ b → Step u x { x with upWay := b, upBuf := x.upBuf ++ a }
  /-- Some bytes reach the client. -/
  | down {x : Conn} (a b : Str) : a ≠ [] → x.downWay = a ++ b → Step u x { x with downWay := b, downBuf := x.downBuf ++ a }
  /-- The client reads. -/
  | client {x : Conn} {c : Client} {rest out : Str} : x.client.read u x.downBuf = some (c, rest, out) →
      Step u x { x with client := c, downBuf := rest, upWay := x.upWay ++ out }
  /-- The router reads. -/
  | router {x : Conn} {r : Router} {rest out : Str} : x.router.read u x.upBuf = some (r, rest, out) →
      Step u x { x with router := r, upBuf := rest, downWay := x.downWay ++ out }

/-- `n` steps. -/
inductive Steps (u : Setup) : Nat → Conn → Conn → Prop
  | nil {x} : Steps u 0 x x
  | cons {n x y z} : Step u x y → Steps u n y z → Steps u (n + 1) x z

/-- Nothing more can happen. -/
def Over (u : Setup) (x : Conn) : Prop := ∀ y, ¬ Step u x y

end Wamp.Connect
