import Verif.Model.Acceptor
/-!
# Histories of an acceptor
-/
namespace Wamp.Acceptor

/-- One call of `ReceiveMessage`: what it was given, what it returned, and what the server authenticator was asked and
answered during the call. -/
structure Call where
  env : Env
  msg : Msg
  out : Res Msg
  asked : Option (AuthReq × AuthOut)

/-- The record of calling `recv`. -/
def callOf (cr : Crypto) (env : Env) (s : State) (m : Msg) : Call :=
  ⟨env, m, (recv cr env s m).res, (recv cr env s m).asked⟩

/-- `Hist cr static h s`: `h` (newest call first) is what happened on a new acceptor, which is now in state `s`. Messages,
authenticator answers and random values are arbitrary in every call. -/
inductive Hist (cr : Crypto) (static : Bool) : List Call → State → Prop where
  | new : Hist cr static [] (init static)
  | call {h s} (env : Env) (m : Msg) : Hist cr static h s →
      Hist cr static (callOf cr env s m :: h) (recv cr env s m).state

/-- The acceptor answered with a message of this class. -/
def Call.answered (c : Call) (k : Kind) : Prop := ∃ m, c.out = .ok m ∧ m.kind = k

/-- Nothing but errors (or crashes) and ABORTs was returned. -/
def OnlyAborts (h : List Call) : Prop := ∀ c ∈ h, ∀ m, c.out = .ok m → m.kind = .abort

/-- A HELLO with these contents. -/
def IsHello (m : Msg) (realm authID : Str) (ms : Option (List Str)) (extra : GoMap) : Prop :=
  ∃ roles, m = .hello realm authID ms extra roles

/-- The authenticator approved this request in this call. -/
def Call.approved (c : Call) (req : AuthReq) (r : AuthResp) : Prop := c.asked = some (req, .ok r)

/-- `req` asks for a login with this HELLO by this method. -/
def Asks (req : AuthReq) (realm authID : Str) (extra : GoMap) (method : Str) : Prop :=
  req.realm = realm ∧ req.authID = authID ∧ req.authExtra = extra ∧ req.method = method

/-- Executable history (oldest input first), for concrete examples. -/
def runAll (cr : Crypto) (static : Bool) (inputs : List (Env × Msg)) : List Call × State :=
  inputs.foldl (fun (h, s) (env, m) => (callOf cr env s m :: h, (recv cr env s m).state)) ([], init static)

theorem runAll_hist (cr : Crypto) (static : Bool) (inputs : List (Env × Msg)) :
    Hist cr static (runAll cr static inputs).1 (runAll cr static inputs).2 := by
  unfold runAll
  have : ∀ (h : List Call) (s : State), Hist cr static h s →
      Hist cr static
        (inputs.foldl (fun (p : List Call × State) (q : Env × Msg) =>
          (callOf cr q.1 p.2 q.2 :: p.1, (recv cr q.1 p.2 q.2).state)) (h, s)).1
        (inputs.foldl (fun (p : List Call × State) (q : Env × Msg) =>
          (callOf cr q.1 p.2 q.2 :: p.1, (recv cr q.1 p.2 q.2).state)) (h, s)).2 := by
    induction inputs with
    | nil => intro h s hh; exact hh
    | cons p rest ih => intro h s hh; exact ih _ _ (.call p.1 p.2 hh)
  exact this [] _ .new

end Wamp.Acceptor
