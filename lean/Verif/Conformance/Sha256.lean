import Verif.Props.Sha256
/-!
# Published test values of SHA-256, HMAC and PBKDF2, and the tests of WAMP-CRA with the real hash

FIPS 180-4 (examples of NIST), RFC 4231, RFC 7914 section 11 and auth/wampcra_test.go.
-/
namespace Wamp.Sha256

set_option maxRecDepth 100000

/-- The bytes written as hex digits. -/
private def hex (s : String) : Str := (hexDecode (str s)).getD []

/-! ### The constants: fractional parts of roots of primes -/

/-- The first `n` primes from `k` on (searching `fuel` numbers). -/
private def primes : Nat → Nat → List Nat
  | 0, _ => []
  | fuel + 1, k => if (List.range k).all fun d => d < 2 || k % d != 0 then k :: primes fuel (k + 1) else primes fuel (k + 1)

/-- `c` is the fractional part of the `e`-th root of `p`, cut off after 32 bits; the root is less than 32. -/
private def rootFraction (e p c : Nat) : Bool :=
  (List.range 32).any fun i => (i * 2 ^ 32 + c) ^ e ≤ p * 2 ^ (32 * e) && p * 2 ^ (32 * e) < (i * 2 ^ 32 + c + 1) ^ e

example : (primes 310 2).length = 64 ∧ K.length = 64 ∧ ((primes 310 2).zip K).all (fun x => rootFraction 3 x.1 x.2) = true ∧
    H0.length = 8 ∧ ((primes 18 2).zip H0).all (fun x => rootFraction 2 x.1 x.2) = true ∧ K.all (· < 2 ^ 32) = true ∧ H0.all (· < 2 ^ 32) = true := by
  decide +kernel

/-! ### SHA-256 -/

example : sha256 (str "") = hex "e3b0c44298fc1c149afbf4c8996fb92427ae41e4649b934ca495991b7852b855" := by decide +kernel
example : sha256 (str "abc") = hex "ba7816bf8f01cfea414140de5dae2223b00361a396177a9cb410ff61f20015ad" := by decide +kernel
example : sha256 (str "abcdbcdecdefdefgefghfghighijhijkijkljklmklmnlmnomnopnopq") = hex "248d6a61d20638b8e5c026930c3e6039a33ce45964ff2167f6ecedd419db06c1" := by decide +kernel
example : sha256 (List.replicate 55 0x61) = hex "9f4390f8d30c2dd92ec9f095b65e2b9ae9b0a925a5258e241c9f1e910f734318" := by decide +kernel
example : sha256 (List.replicate 64 0x61) = hex "ffe054fe7ae0cb6dc65c3af9b61d5209f439851db43d0ba5997337df154668eb" := by decide +kernel
example : sha256 (List.replicate 119 0x61) = hex "31eba51c313a5c08226adf18d4a359cfdfd8d2e816b13f4af952f7ea6584dcfb" := by decide +kernel
example : sha256 (List.replicate 128 0x61) = hex "6836cf13bac400e9105071cd6af47084dfacad4e5e302c94bfed24e013afb73e" := by decide +kernel

/-! ### HMAC-SHA256 (RFC 4231, cases 1, 2, 3, 6) -/

example : hmac (List.replicate 20 0x0b) (str "Hi There") = hex "b0344c61d8db38535ca8afceaf0bf12b881dc200c9833da726e9376c2e32cff7" := by decide +kernel
example : hmac (str "Jefe") (str "what do ya want for nothing?") = hex "5bdcc146bf60754e6a042426089575c75a003f089d2739839dec58b964ec3843" := by decide +kernel
example : hmac (List.replicate 20 0xaa) (List.replicate 50 0xdd) = hex "773ea91e36800e46854db8ebd09181a72959098b3ef8c122d9635514ced565fe" := by decide +kernel
example : hmac (List.replicate 131 0xaa) (str "Test Using Larger Than Block-Size Key - Hash Key First") = hex "60e431591ee0b67f0d8a26aacbf5b77f8e0bc6213728c5140546040f0ee37f54" := by decide +kernel

/-! ### PBKDF2 (the first of RFC 7914, section 11; more iterations) -/

example : pbkdf2 (str "passwd") (str "salt") 1 64 = hex "55ac046e56e3089fec1691c22544b605f94185216dde0465e68b9d57c20dacbc49ca9cccf179b645991664b39d77ef317c71b845b1e30bd509112041d3a19783" := by decide +kernel
example : pbkdf2 (str "password") (str "salt") 2 20 = hex "ae4d0c95af6b46d32d0adff928f06dd02a303f8e" := by decide +kernel
example : pbkdf2 (str "password") (str "salt") 3 33 = hex "ad35240ac683febfaf3cd49d845473fbbbaa2437f5f82d5a415ae00ac76c6bfccf" := by decide +kernel

/-! ### auth/wampcra_test.go -/

/-- `testCRAChallenge` (auth/wampcra_test.go:18-26) -/
private def testChallenge : Str := str "{\n  \"authid\": \"authid\",\n  \"authmethod\": \"wampcra\",\n  \"authprovider\": \"provider\",\n  \"authrole\": \"authrole\",\n  \"nonce\": \"VJ/iO7bpl5rCiRGJ7IGuQg==\",\n  \"session\": 12345,\n  \"timestamp\": \"2024-07-09T14:32:29+0500\"\n}"

/-- auth/wampcra_test.go:28-74: the signature is the HMAC-SHA256 in base64 (the value is that of another implementation). -/
example (cr : Crypto) : signCRA (real cr) testChallenge (str "secret") = str "zeKvtzblkhYcLSniqcPEvp3+2uXNkPOSOsR3ZYc9CPw=" := by
  show b64Encode (hmac (str "secret") testChallenge) = _
  decide +kernel
example (cr : Crypto) : craAuthenticate (real cr) (str "secret") none (some [(str "challenge", .str testChallenge)]) =
    .ok (signCRA (real cr) testChallenge (str "secret"), none) := rfl

/-- auth/wampcra_test.go:76-85: a derived key has the length of 32 bytes in base64. -/
example (cr : Crypto) : ∃ k, deriveCRAKey (real cr) (str "somesalt") (str "secret") 1000 32 = .ok k ∧ k.length = 44 :=
  C168_derived cr (str "somesalt") (str "secret") 1000 32

/-- auth/wampcra_test.go:87-96 -/
example (cr : Crypto) : verifyCRA (real cr) (signCRA (real cr) testChallenge (str "secret")) testChallenge (str "secret") = true ∧
    verifyCRA (real cr) (str "invalidsig") testChallenge (str "secret") = false := ⟨C23_cra_completeness _ _ _, rfl⟩

end Wamp.Sha256
