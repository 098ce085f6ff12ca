import Verif.Spec.Acceptor
import Verif.Spec.Joiner
import Verif.Spec.Challenge
/-!
# Acceptors and joiners with an intruder between them

Any number of acceptors and of joiners with built-in authenticators, and a network that is in the hands of an intruder: every message that an
acceptor or a joiner receives is chosen by the intruder, in any order.  Passing messages on unchanged is one thing the intruder may do.
-/
namespace Wamp.Intruder
open Wamp

/-- What happens: acceptor `i` was called, client `j` called `SendHello`, or client `j` received a message and returned an answer. -/
inductive Event where
  | acceptor (i : Nat) (c : Acceptor.Call)
  | hello (j : Nat) (res : Res Str)
  | client (j : Nat) (m : Msg) (res : Res (Option Msg))

/-- All acceptors and all joiners. -/
structure World where
  acc : Nat → Acceptor.State
  cli : Nat → Joiner.State

/-- `Run cr auth h w`: `h` (newest event first) is what happened since all were new, `w` is what they are like now.  Client `j` uses the
authenticator `auth j`.  Messages, what the server's authenticator answers, random values and serializers are arbitrary in every call. -/
inductive Run (cr : Crypto) (auth : Nat → ClientAuth) : List Event → World → Prop where
  | new (astatic jstatic : Nat → Bool) (realm : Nat → Str) :
      Run cr auth [] ⟨fun i => Acceptor.init (astatic i), fun j => Joiner.init (realm j) (jstatic j)⟩
  | acceptor {h w} (i : Nat) (env : Acceptor.Env) (m : Msg) : Run cr auth h w →
      Run cr auth (.acceptor i (Acceptor.callOf cr env (w.acc i) m) :: h)
        { w with acc := fun k => if k = i then (Acceptor.recv cr env (w.acc i) m).state else w.acc k }
  | hello {h w} (j : Nat) (c : Codec) : Run cr auth h w →
      Run cr auth (.hello j (Joiner.sendHello c ((auth j).toAuth cr) (w.cli j)).2 :: h)
        { w with cli := fun k => if k = j then (Joiner.sendHello c ((auth j).toAuth cr) (w.cli j)).1 else w.cli k }
  | client {h w} (j : Nat) (m : Msg) : Run cr auth h w →
      Run cr auth (.client j m (Joiner.recv ((auth j).toAuth cr) (w.cli j) m).2 :: h)
        { w with cli := fun k => if k = j then (Joiner.recv ((auth j).toAuth cr) (w.cli j) m).1 else w.cli k }

/-- Client `j` answered a CHALLENGE with this extra by an AUTHENTICATE with this signature. -/
def Signed (h : List Event) (j : Nat) (extra : GoMap) (sig : Str) : Prop :=
  ∃ method ex, Event.client j (.challenge method extra) (.ok (some (.authenticate sig ex))) ∈ h

/-- The text a GoMap has under this key is this one. -/
def says (d : GoMap) (k : Str) (t : Str) : Bool :=
  match d.get k with
  | some (.str u) => u == t
  | some (.named u) => u == t
  | _ => false

/-- A WELCOME to somebody logged in as `user` by this method. -/
def Event.opens (user method : Str) : Event → Bool
  | .acceptor _ c =>
    match c.out with
    | .ok (.welcome _ d) => says d (str "authid") user && says d (str "authmethod") method
    | _ => false
  | _ => false

/-- A successful `SendHello` of one of these clients. -/
def Event.tries (who : Nat → Bool) : Event → Bool
  | .hello j (.ok _) => who j
  | _ => false

/-- Whenever the server's authenticator accepts `user`, the WAMP-CRA key that comes with it is one of `keys`. -/
def KeysOf (cr : Crypto) (user : Str) (keys : Str → Prop) (h : List Event) : Prop :=
  ∀ i c req r info key, Event.acceptor i c ∈ h → c.approved req r → r.authID = user → r.cra = some info → craKey cr info = .ok key → keys key

/-- Nobody else's client, whatever it is asked to sign, answers with a MAC made with one of `keys`. -/
def OnlyOwners (cr : Crypto) (auth : Nat → ClientAuth) (owner : Nat → Bool) (keys : Str → Prop) : Prop :=
  ∀ j, owner j = false → ∀ extra sig ex, (auth j).authenticate cr extra = .ok (sig, ex) →
    ∀ key text, keys key → b64Decode sig ≠ some (cr.hmac key text)

/-- The intruder makes no MAC with `keys`: when an acceptor is given one, a client sent it before (in some base64 spelling). -/
def NoForgery (cr : Crypto) (keys : Str → Prop) (h : List Event) : Prop :=
  ∀ later i c earlier sig ex key text, h = later ++ .acceptor i c :: earlier → c.msg = .authenticate sig ex → keys key →
    b64Decode sig = some (cr.hmac key text) →
    ∃ j extra sig', Signed earlier j extra sig' ∧ b64Decode sig' = some (cr.hmac key text)

/-- Clients that own the user's secret use WAMP-CRA. -/
def Owners (auth : Nat → ClientAuth) (owner : Nat → Bool) : Prop :=
  ∀ j, owner j = true → ∃ authID ex secret, auth j = .cra authID ex secret

/-- Each acceptor gets its WAMP-CRA challenge from `GenerateWAMPCRAChallenge`, and no two acceptors draw the same nonce. -/
structure FreshNonces (draw : Nat → Draw) (h : List Event) : Prop where
  made : ∀ i c extra, Event.acceptor i c ∈ h → c.out = .ok (.challenge mCRA extra) → Spec.Generated c (draw i)
  differ : ∀ i i' n, (draw i).nonce = some n → (draw i').nonce = some n → i = i'

/-! ### The same for CryptoSign -/

/-- The text of an AUTHENTICATE is a valid signature of `msg` under the public key. -/
def ValidFor (cr : Crypto) (key : Str) (sig msg : Str) : Prop :=
  ∃ sg, hexDecode sig = some (sg ++ msg) ∧ sg.length = 64 ∧ cr.verify key msg sg = true

/-- Whenever the server's authenticator accepts `user`, the public key it was asked about is one of `keys`. -/
def PublicKeysOf (user : Str) (keys : Str → Prop) (h : List Event) : Prop :=
  ∀ i c req r pk key, Event.acceptor i c ∈ h → c.approved req r → r.authID = user → req.publicKey = some pk → hexDecode pk = some key →
    keys ((key ++ List.replicate 32 0).take 32)

/-- Nobody else's client, whatever it is asked to sign, answers with a signature that is valid under one of `keys`. -/
def OnlyOwnersSign (cr : Crypto) (auth : Nat → ClientAuth) (owner : Nat → Bool) (keys : Str → Prop) : Prop :=
  ∀ j, owner j = false → ∀ extra sig ex, (auth j).authenticate cr extra = .ok (sig, ex) → ∀ key msg, keys key → ¬ ValidFor cr key sig msg

/-- The intruder makes no signatures: when an acceptor is given one that is valid under one of `keys`, a client sent a valid signature of the
same message before. -/
def NoForgedSignature (cr : Crypto) (keys : Str → Prop) (h : List Event) : Prop :=
  ∀ later i c earlier sig ex key msg, h = later ++ .acceptor i c :: earlier → c.msg = .authenticate sig ex → keys key →
    ValidFor cr key sig msg → ∃ j extra sig', Signed earlier j extra sig' ∧ ValidFor cr key sig' msg

/-! ### Honest WELCOMEs -/

/-- The intruder makes up no WELCOMEs: every one that a client receives was sent by an acceptor. -/
def NoForgedWelcome (h : List Event) : Prop :=
  ∀ j id d res, Event.client j (.welcome id d) res ∈ h → ∃ i c, Event.acceptor i c ∈ h ∧ c.out = .ok (.welcome id d)

end Wamp.Intruder
