import Verif.Spec.Acceptor
import Verif.Spec.Joiner
import Verif.Spec.Interop
/-!
# Everything a joiner or an acceptor lets out

Two runs with the same inputs and different secrets are compared.
-/
namespace Wamp.Secrets
open Wamp Wamp.Interop

/-- What a joiner is made to do: `SendHello` or `ReceiveMessage`. -/
inductive Input where
  | hello (c : Codec)
  | message (m : Msg)

/-- All that a joiner returns, oldest first, and what `SessionDetails` says in the end. -/
def clientSays (a : Joiner.Auth) (s : Joiner.State) : List Input → List (Res (Option Msg) ⊕ Res Str) × Res SessionDetails
  | [] => ([], Joiner.sessionDetails s)
  | .hello c :: rest =>
    let (out, d) := clientSays a (Joiner.sendHello c a s).1 rest
    (.inr (Joiner.sendHello c a s).2 :: out, d)
  | .message m :: rest =>
    let (out, d) := clientSays a (Joiner.recv a s m).1 rest
    (.inl (Joiner.recv a s m).2 :: out, d)

/-- All that an acceptor returns, oldest first, and what `SessionDetails` says in the end. -/
def routerSays (cr : Crypto) (s : Acceptor.State) : List (Acceptor.Env × Msg) → List (Res Msg) × Res SessionDetails
  | [] => ([], Acceptor.sessionDetails s)
  | (env, m) :: rest =>
    let (out, d) := routerSays cr (Acceptor.recv cr env s m).state rest
    ((Acceptor.recv cr env s m).res :: out, d)

/-- The answers of the server's authenticator are alike except for the secrets, which `R` pairs. -/
inductive AlikeAnswer (R : Str → Str → Prop) : AuthOut → AuthOut → Prop where
  | err (t : Str) : AlikeAnswer R (.err t) (.err t)
  | nilResp : AlikeAnswer R .nilResp .nilResp
  | plain (authID role : Str) : AlikeAnswer R (.ok ⟨authID, role, none⟩) (.ok ⟨authID, role, none⟩)
  | cra (authID role s s' salt : Str) (i k : Int) : R s s' →
      AlikeAnswer R (.ok ⟨authID, role, some ⟨s, salt, i, k⟩⟩) (.ok ⟨authID, role, some ⟨s', salt, i, k⟩⟩)

/-- The same inputs, with authenticators whose answers are alike except for the secrets. -/
inductive AlikeInputs (R : Str → Str → Prop) : List (Acceptor.Env × Msg) → List (Acceptor.Env × Msg) → Prop where
  | nil : AlikeInputs R [] []
  | cons (env : Acceptor.Env) (authn' : AuthReq → AuthOut) (m : Msg) {l l' : List (Acceptor.Env × Msg)} :
      (∀ q, AlikeAnswer R (env.authn q) (authn' q)) → AlikeInputs R l l' →
      AlikeInputs R ((env, m) :: l) (({ env with authn := authn' }, m) :: l')

end Wamp.Secrets
