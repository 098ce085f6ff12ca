import Verif.Model.Ed25519
import Verif.Model.Acceptor
/-!
# A public key for which everybody can sign
-/
namespace Wamp.Ed25519

/-- The byte 1 and zeros, 32 bytes together: as a public key it stands for the neutral element of the curve. -/
def one : Str := 1 :: List.replicate 31 0

/-- 64 bytes that need no private key: the byte 1 and zeros. -/
def nobody : Str := 1 :: List.replicate 63 0

end Wamp.Ed25519
