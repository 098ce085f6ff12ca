import Verif.Spec.Acceptor
import Verif.Spec.Net
/-!
# A router with its logins

Spec/Net, and what comes before: every connection has an `Acceptor` of its own, and a session joins when its acceptor has session details
for it.  What clients send during login, what the server's authenticator answers and which random values are drawn is arbitrary.
-/
namespace Wamp.Site
open Wamp Wamp.System Wamp.Net

/-- Router and clients; the acceptor of every connection and what happened on it (newest first); the sessions that have joined, each with
its connection. -/
structure Site where
  net : Net
  acc : Nat → Acceptor.State
  calls : Nat → List Acceptor.Call
  entered : List (Nat × Nat)

/-- Nothing has happened; `static c`: what the serializer of connection `c` says about itself. -/
def Site.new (static : Nat → Bool) : Site := ⟨Net.new, fun c => Acceptor.init (static c), fun _ => [], []⟩

/-- What can happen. -/
inductive Step (cr : Crypto) (w : Str → Str → Bool) (c : Nat → Codec) (Fit : Nat → Msg → Prop) : Site → Site → Prop
  /-- The acceptor of connection `l` is given a message. -/
  | login {x : Site} (l : Nat) (env : Acceptor.Env) (m : Msg) :
      Step cr w c Fit x { x with acc := upd x.acc l (Acceptor.recv cr env (x.acc l) m).state,
                                 calls := upd x.calls l (Acceptor.callOf cr env (x.acc l) m :: x.calls l) }
  /-- The acceptor of connection `l` has session details, and the session joins. -/
  | enter {x : Site} {y : Sys} (l : Nat) (d : SessionDetails) : Acceptor.sessionDetails (x.acc l) = .ok d →
      x.net.core.act w (.join d) = some y →
      Step cr w c Fit x { x with net := { x.net with core := y }, entered := (d.id, l) :: x.entered }
  /-- Anything else between router and clients. -/
  | run {x : Site} (n : Net) : Net.Step w c Fit x.net n → n.core.joined = x.net.core.joined → Step cr w c Fit x { x with net := n }

/-- Every state that some sequence of steps leads to. -/
inductive Reach (cr : Crypto) (static : Nat → Bool) (w : Str → Str → Bool) (c : Nat → Codec) (Fit : Nat → Msg → Prop) : Site → Prop
  | new : Reach cr static w c Fit (Site.new static)
  | step {x y : Site} : Reach cr static w c Fit x → Step cr w c Fit x y → Reach cr static w c Fit y

/-- Session `p` has joined on connection `l` and was let in under this auth ID and role: the acceptor of that connection answered with a
WELCOME for session `p` that carries them, and the server's authenticator had given them as its answer to a request with the realm, auth ID,
auth extra and method of the HELLO on that connection. -/
def LoggedIn (x : Site) (p l : Nat) (authID authRole : Str) : Prop :=
  (p, l) ∈ x.entered ∧
  ∃ welcome ∈ x.calls l, ∃ d, welcome.out = .ok (.welcome p d) ∧
    d.get (str "authid") = some (.str authID) ∧ d.get (str "authrole") = some (.str authRole) ∧
    ∃ hello ∈ x.calls l, ∃ realm id ms ex method, Acceptor.IsHello hello.msg realm id ms ex ∧
      d.get (str "realm") = some (.str realm) ∧ d.get (str "authmethod") = some (.named method) ∧
      ∃ a ∈ x.calls l, ∃ req r, a.approved req r ∧ Acceptor.Asks req realm id ex method ∧ r.authID = authID ∧ r.authRole = authRole

/-- `v` is the number `n` (for `n` beyond 2^53 JSON is not precise). -/
def isNumber (v : Option Val) (n : Nat) : Prop := n ≤ 2 ^ 53 → v.bind asUInt64 = some n

end Wamp.Site
