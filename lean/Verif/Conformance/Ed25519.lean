import Verif.Props.Ed25519
/-!
# Published test values of SHA-512 and Ed25519, and the tests of CryptoSign with the real thing

FIPS 180-4 (examples of NIST), RFC 8032 (7.1) and auth/cryptosign_test.go.
-/
namespace Wamp.Ed25519

set_option maxRecDepth 100000

/-- The bytes written as hex digits. -/
private def hex (s : String) : Str := (hexDecode (str s)).getD []

/-! ### The constants -/

/-- The primes from `k` on, searching `fuel` numbers. -/
private def primes : Nat → Nat → List Nat
  | 0, _ => []
  | fuel + 1, k => if (List.range k).all fun d => d < 2 || k % d != 0 then k :: primes fuel (k + 1) else primes fuel (k + 1)

/-- `c` is the fractional part of the `e`-th root of `p`, cut off after 64 bits; the root is less than 32. -/
private def rootFraction (e p c : Nat) : Bool :=
  (List.range 32).any fun i => (i * 2 ^ 64 + c) ^ e ≤ p * 2 ^ (64 * e) && p * 2 ^ (64 * e) < (i * 2 ^ 64 + c + 1) ^ e

example : (primes 408 2).length = 80 ∧ K.length = 80 ∧ ((primes 408 2).zip K).all (fun x => rootFraction 3 x.1 x.2) = true ∧
    H0.length = 8 ∧ ((primes 18 2).zip H0).all (fun x => rootFraction 2 x.1 x.2) = true ∧ K.all (· < 2 ^ 64) = true ∧ H0.all (· < 2 ^ 64) = true := by
  decide +kernel

example : p = 2 ^ 255 - 19 ∧ L = 2 ^ 252 + 27742317777372353535851937790883648493 ∧ (d * 121666 + 121665) % p = 0 ∧
    (sqrtM1 * sqrtM1 + 1) % p = 0 := by decide +kernel

/-- The base point is on the curve, its `y` is 4/5, its `x` is even, and its order divides `L`. -/
example : (base.Y * base.Y) % p = (base.X * base.X + 1 + d * (base.X * base.X * (base.Y * base.Y))) % p ∧ base.Y * 5 % p = 4 ∧ base.X % 2 = 0 ∧
    base.T = base.X * base.Y % p ∧ (base.mul 255 L).encode = one ∧ base.encode ≠ one := by decide +kernel

/-! ### SHA-512 -/

example : sha512 (str "") = hex "cf83e1357eefb8bdf1542850d66d8007d620e4050b5715dc83f4a921d36ce9ce47d0d13c5d85f2b0ff8318d2877eec2f63b931bd47417a81a538327af927da3e" := by decide +kernel
example : sha512 (str "abc") = hex "ddaf35a193617abacc417349ae20413112e6fa4e89a97ea20a9eeee64b55d39a2192992a274fc1a836ba3c23a3feebbd454d4423643ce80e2a9ac94fa54ca49f" := by decide +kernel
example : sha512 (str "abcdefghbcdefghicdefghijdefghijkefghijklfghijklmghijklmnhijklmnoijklmnopjklmnopqklmnopqrlmnopqrsmnopqrstnopqrstu") = hex "8e959b75dae313da8cf4f72814fc143f8f7779c6eb9f7fa17299aeadb6889018501d289e4900f7e4331b99dec4b5433ac7d329eeb6dd26545e96e55b874be909" := by decide +kernel
example : sha512 (List.replicate 111 0x61) = hex "fa9121c7b32b9e01733d034cfc78cbf67f926c7ed83e82200ef86818196921760b4beff48404df811b953828274461673c68d04e297b0eb7b2b4d60fc6b566a2" := by decide +kernel
example : sha512 (List.replicate 128 0x61) = hex "b73d1929aa615934e61a871596b3f3b33359f42b8175602e89f7e06e5f658a243667807ed300314b95cacdd579f3e33abdfbe351909519a846d465c59582f321" := by decide +kernel

/-! ### Ed25519 (RFC 8032, 7.1, tests 1 and 2) -/

example : pubOfSeed (hex "9d61b19deffd5a60ba844af492ec2cc44449c5697b326919703bac031cae7f60") = hex "d75a980182b10ab7d54bfed3c964073a0ee172f3daa62325af021a68f707511a" ∧
    sign (hex "9d61b19deffd5a60ba844af492ec2cc44449c5697b326919703bac031cae7f60") (hex "") =
      hex "e5564300c360ac729086e2cc806e828a84877f1eb8e5d974d873e065224901555fb8821590a33bacc61e39701cf9b46bd25bf5f0595bbe24655141438e7a100b" ∧
    verify (hex "d75a980182b10ab7d54bfed3c964073a0ee172f3daa62325af021a68f707511a") (hex "")
      (hex "e5564300c360ac729086e2cc806e828a84877f1eb8e5d974d873e065224901555fb8821590a33bacc61e39701cf9b46bd25bf5f0595bbe24655141438e7a100b") = true := by
  decide +kernel
example : pubOfSeed (hex "4ccd089b28ff96da9db6c346ec114e0f5b8a319f35aba624da8cf6ed4fb8a6fb") = hex "3d4017c3e843895a92b70aa74d1b7ebc9c982ccf2ec4968cc0cd55f12af4660c" ∧
    sign (hex "4ccd089b28ff96da9db6c346ec114e0f5b8a319f35aba624da8cf6ed4fb8a6fb") (hex "72") =
      hex "92a009a9f0d4cab8720e820b5f642540a2b27b5416503f8fb3762223ebdb69da085ac1e43e15996e458f3613d0f11d8c387b2eaeb4302aeeb00d291612bb0c00" ∧
    verify (hex "3d4017c3e843895a92b70aa74d1b7ebc9c982ccf2ec4968cc0cd55f12af4660c") (hex "72")
      (hex "92a009a9f0d4cab8720e820b5f642540a2b27b5416503f8fb3762223ebdb69da085ac1e43e15996e458f3613d0f11d8c387b2eaeb4302aeeb00d291612bb0c00") = true := by
  decide +kernel

/-! ### auth/cryptosign_test.go -/

/-- auth/cryptosign_test.go:14-19 -/
private def testPublicKey : Str := str "2b7ec216daa877c7f4c9439db8a722ea2340eacad506988db2564e258284f895"
private def testPrivateKey : Str := str "022b089bed5ab78808365e82dd12c796c835aeb98b4a5a9e099d3e72cb719516"
private def testChallenge : Str := str "5c7b195948a15a9f94bdc31cf6d88294e380985e2c40f5f912fd707e080cb5ff"

private theorem public_key : cryptoSignKeyPair real (hex "022b089bed5ab78808365e82dd12c796c835aeb98b4a5a9e099d3e72cb719516") = (testPublicKey, testPrivateKey) := by decide +kernel

/-- The public key in the auth extra of an authenticator. -/
private def advertised : Res ClientAuth → Option Str
  | .ok a => match a.authExtra.get (str "pubkey") with
    | some (.str s) => some s
    | _ => none
  | _ => none

/-- auth/cryptosign_test.go:21-27: the authenticator advertises the public key of the private key. -/
example : advertised (newCryptoSign real (str "foo") testPrivateKey none) = some testPublicKey := by decide +kernel
/-- auth/cryptosign_test.go:29-32 -/
example : (match newCryptoSign real (str "foo") (str "invalidkey") none with | .err => true | _ => false) = true := by decide +kernel
/-- auth/cryptosign_test.go:34-38 -/
example : (match newCryptoSign real (str "authID") testPrivateKey
    (some [(str "pubkey", .str (str "d057db19aa21f20419dfd385c3dae0cc39ecfc94f8acc921d5f9fc76443098f0"))]) with | .err => true | _ => false) = true := by
  decide +kernel
/-- auth/cryptosign_test.go:40-47 -/
example : advertised (newCryptoSign real (str "foo") testPrivateKey (some [(str "abc", .int .int 123)])) = some testPublicKey := by decide +kernel
/-- auth/cryptosign_test.go:49-58 and 70-81: the signed challenge has 96 bytes. -/
example : ∃ sig b, signCryptoSign real testChallenge (hex "022b089bed5ab78808365e82dd12c796c835aeb98b4a5a9e099d3e72cb719516") = some sig ∧ hexDecode sig = some b ∧ b.length = 96 := by
  have h : hexDecode testChallenge = some (hex "5c7b195948a15a9f94bdc31cf6d88294e380985e2c40f5f912fd707e080cb5ff") := by decide +kernel
  obtain ⟨sig, h1, h2, _⟩ := C170_answer testChallenge _ h (hex "022b089bed5ab78808365e82dd12c796c835aeb98b4a5a9e099d3e72cb719516")
  exact ⟨sig, _, h1, h2, by rw [List.length_append, (C170_sizes _ _).2]; decide +kernel⟩
/-- auth/cryptosign_test.go:60-67 -/
example : advertised (newCryptoSign real (str "foo") testPrivateKey (some [])) = some testPublicKey := by decide +kernel
/-- auth/cryptosign_test.go:83-97 -/
example : (signCryptoSign real testChallenge (hex "022b089bed5ab78808365e82dd12c796c835aeb98b4a5a9e099d3e72cb719516")).bind (verifyCryptoSign real · (hex "2b7ec216daa877c7f4c9439db8a722ea2340eacad506988db2564e258284f895")) =
    some true := by
  have h : signCryptoSign real testChallenge (hex "022b089bed5ab78808365e82dd12c796c835aeb98b4a5a9e099d3e72cb719516") = some (str "aef37266d7f6426d56ff75de15413b721ac0086012e4934964693903ddacd8347102c722f3b2834daa67ee443c9a511e42ceb3d4af0d2675945bb365fbbd4808" ++ testChallenge) := by
    decide +kernel
  rw [h]
  decide +kernel

end Wamp.Ed25519
