import Verif.Model.Sha256
/-!
# Ed25519

A parameter in the rest of the model (`Crypto`).  Here it is computed, after FIPS 180-4 (SHA-512) and RFC 8032, in the way Go's `crypto/ed25519`
(and with it `golang.org/x/crypto/nacl/sign`) computes it.  The formulas for points are those of RFC 8032; Go's give the same points in other coordinates.
-/
namespace Wamp.Ed25519

open Sha256 (bytes)

/-! ### SHA-512 -/

/-- The first 64 bits of the fractional parts of the cube roots of the first 80 primes (`_K` in crypto/sha512). -/
def K : List Nat :=
  [0x428a2f98d728ae22, 0x7137449123ef65cd, 0xb5c0fbcfec4d3b2f, 0xe9b5dba58189dbbc, 0x3956c25bf348b538,
   0x59f111f1b605d019, 0x923f82a4af194f9b, 0xab1c5ed5da6d8118, 0xd807aa98a3030242, 0x12835b0145706fbe,
   0x243185be4ee4b28c, 0x550c7dc3d5ffb4e2, 0x72be5d74f27b896f, 0x80deb1fe3b1696b1, 0x9bdc06a725c71235,
   0xc19bf174cf692694, 0xe49b69c19ef14ad2, 0xefbe4786384f25e3, 0x0fc19dc68b8cd5b5, 0x240ca1cc77ac9c65,
   0x2de92c6f592b0275, 0x4a7484aa6ea6e483, 0x5cb0a9dcbd41fbd4, 0x76f988da831153b5, 0x983e5152ee66dfab,
   0xa831c66d2db43210, 0xb00327c898fb213f, 0xbf597fc7beef0ee4, 0xc6e00bf33da88fc2, 0xd5a79147930aa725,
   0x06ca6351e003826f, 0x142929670a0e6e70, 0x27b70a8546d22ffc, 0x2e1b21385c26c926, 0x4d2c6dfc5ac42aed,
   0x53380d139d95b3df, 0x650a73548baf63de, 0x766a0abb3c77b2a8, 0x81c2c92e47edaee6, 0x92722c851482353b,
   0xa2bfe8a14cf10364, 0xa81a664bbc423001, 0xc24b8b70d0f89791, 0xc76c51a30654be30, 0xd192e819d6ef5218,
   0xd69906245565a910, 0xf40e35855771202a, 0x106aa07032bbd1b8, 0x19a4c116b8d2d0c8, 0x1e376c085141ab53,
   0x2748774cdf8eeb99, 0x34b0bcb5e19b48a8, 0x391c0cb3c5c95a63, 0x4ed8aa4ae3418acb, 0x5b9cca4f7763e373,
   0x682e6ff3d6b2b8a3, 0x748f82ee5defb2fc, 0x78a5636f43172f60, 0x84c87814a1f0ab72, 0x8cc702081a6439ec,
   0x90befffa23631e28, 0xa4506cebde82bde9, 0xbef9a3f7b2c67915, 0xc67178f2e372532b, 0xca273eceea26619c,
   0xd186b8c721c0c207, 0xeada7dd6cde0eb1e, 0xf57d4f7fee6ed178, 0x06f067aa72176fba, 0x0a637dc5a2c898a6,
   0x113f9804bef90dae, 0x1b710b35131c471b, 0x28db77f523047d84, 0x32caab7b40c72493, 0x3c9ebe0a15c9bebc,
   0x431d67c49c100d4c, 0x4cc5d4becb3e42b6, 0x597f299cfc657e2a, 0x5fcb6fab3ad6faec, 0x6c44198c4a475817]

/-- The first 64 bits of the fractional parts of the square roots of the first 8 primes (`init0`…`init7` in crypto/sha512). -/
def H0 : List Nat :=
  [0x6a09e667f3bcc908, 0xbb67ae8584caa73b, 0x3c6ef372fe94f82b, 0xa54ff53a5f1d36f1, 0x510e527fade682d1,
   0x9b05688c2b3e6c1f, 0x1f83d9abfb41bd6b, 0x5be0cd19137e2179]

/-- Addition of two 64-bit words. -/
def add64 (x y : Nat) : Nat := (x + y) % 18446744073709551616
/-- Rotation of a 64-bit word to the right. -/
def rotr (x k : Nat) : Nat := (x >>> k) ||| (x <<< (64 - k)) % 18446744073709551616

/-- The next word of the message schedule from the last sixteen (newest first). -/
def nextWord (ws : List Nat) : Nat :=
  let a := ws.getD 1 0
  let b := ws.getD 14 0
  let t1 := rotr a 19 ^^^ rotr a 61 ^^^ (a >>> 6)
  let t2 := rotr b 1 ^^^ rotr b 8 ^^^ (b >>> 7)
  add64 (add64 t1 (ws.getD 6 0)) (add64 t2 (ws.getD 15 0))

/-- The words of a block and the following `n` words of its schedule, newest first. -/
def schedule : Nat → List Nat → List Nat
  | 0, ws => ws
  | n + 1, ws => schedule n (nextWord ws :: ws)

/-- One round on the working variables `a … h`, with the sum of round constant and schedule word. -/
def round (s : List Nat) (kw : Nat) : List Nat :=
  match s with
  | [a, b, c, d, e, f, g, h] =>
    let t1 := add64 (add64 (add64 h (rotr e 14 ^^^ rotr e 18 ^^^ rotr e 41)) ((e &&& f) ^^^ ((18446744073709551615 - e) &&& g))) kw
    let t2 := add64 (rotr a 28 ^^^ rotr a 34 ^^^ rotr a 39) ((a &&& b) ^^^ (a &&& c) ^^^ (b &&& c))
    [add64 t1 t2, a, b, c, add64 d t1, e, f, g]
  | _ => s

/-- Pairs of 32-bit words as 64-bit words, the higher half first. -/
def pairs : List Nat → List Nat
  | a :: b :: r => (a * 4294967296 + b) :: pairs r
  | _ => []

/-- `block` of crypto/sha512: the state after one more block of 128 bytes. -/
def compress (s : List Nat) (block : Str) : List Nat :=
  List.zipWith add64 s ((List.zipWith add64 K (schedule 64 (pairs (Sha256.words block)).reverse).reverse).foldl round s)

/-- The padding of a message of `n` bytes. -/
def padding (n : Nat) : Str := 0x80 :: List.replicate ((239 - n % 128) % 128) 0 ++ bytes 16 (8 * n)

/-- Cut into blocks of 128 bytes (at most `n`). -/
def blocks : Nat → Str → List Str
  | 0, _ => []
  | n + 1, m => if m = [] then [] else m.take 128 :: blocks n (m.drop 128)

/-- SHA-512 (`sha512.New` in crypto/ed25519). -/
def sha512 (m : Str) : Str :=
  ((blocks (m.length / 128 + 2) (m ++ padding m.length)).foldl compress H0).flatMap (bytes 8)

/-! ### The field and the curve -/

/-- The prime 2^255 - 19. -/
@[irreducible] def p : Nat := 57896044618658097711785492504343953926634992332820282019728792003956564819949
/-- The order of the base point, 2^252 + 27742317777372353535851937790883648493. -/
@[irreducible] def L : Nat := 7237005577332262213973186563042994240857116359379907606001950938285454250989
/-- The constant of the curve, -121665/121666. -/
@[irreducible] def d : Nat := 37095705934669439343138083508754565189542113879843219016388785533085940283555
/-- A square root of -1. -/
@[irreducible] def sqrtM1 : Nat := 19681161376707505956807079304988542015446066515923890162744021073123829784752

/-- `b ^ e` modulo `p`, for exponents below `2 ^ n`. -/
def powMod : Nat → Nat → Nat → Nat
  | 0, _, _ => 1 % p
  | n + 1, b, e => if e % 2 = 1 then b * powMod n (b * b % p) (e / 2) % p else powMod n (b * b % p) (e / 2)

/-- A point in extended coordinates: `x = X/Z`, `y = Y/Z`, `x * y = T/Z`. -/
structure Point where
  X : Nat
  Y : Nat
  Z : Nat
  T : Nat
  deriving DecidableEq

/-- The neutral element. -/
def Point.zero : Point := ⟨0, 1, 1, 0⟩

/-- The base point. -/
def base : Point :=
  ⟨15112221349535400772501151409588531511454012693041857206046113283949847762202,
   46316835694926478169428394003475163141307993866256225615783033603165251855960, 1,
   46827403850823179245072216630277197565144205554125654976674165829533817101731⟩

/-- Addition (RFC 8032, 5.1.4). -/
def Point.add (q r : Point) : Point :=
  let a := (q.Y + p - q.X) * (r.Y + p - r.X) % p
  let b := (q.Y + q.X) * (r.Y + r.X) % p
  let c := q.T * 2 * d % p * r.T % p
  let e := q.Z * 2 * r.Z % p
  let E := (b + p - a) % p
  let F := (e + p - c) % p
  let G := (e + c) % p
  let H := (b + a) % p
  ⟨E * F % p, G * H % p, F * G % p, E * H % p⟩

/-- Multiplication with a scalar below `2 ^ n`. -/
def Point.mul : Nat → Nat → Point → Point
  | 0, _, _ => .zero
  | n + 1, k, q => if k % 2 = 1 then q.add (mul n (k / 2) (q.add q)) else mul n (k / 2) (q.add q)

/-- The opposite point. -/
def Point.neg (q : Point) : Point := ⟨(p - q.X) % p, q.Y, q.Z, (p - q.T) % p⟩

/-- A number as `n` bytes, the lowest first. -/
def leBytes : Nat → Nat → Str
  | 0, _ => []
  | n + 1, x => UInt8.ofNat x :: leBytes n (x / 256)

/-- Bytes as a number, the lowest first. -/
def leNum : Str → Nat
  | [] => 0
  | b :: r => b.toNat + 256 * leNum r

/-- `Point.Bytes`: `y`, with the lowest bit of `x` as the highest bit. -/
def Point.encode (q : Point) : Str :=
  let i := powMod 255 q.Z (p - 2)
  leBytes 32 (q.Y * i % p + (q.X * i % p) % 2 * 2 ^ 255)

/-- `Point.SetBytes`; `none` is an error.  A `y` that is not below `p` is accepted. -/
def decode (s : Str) : Option Point :=
  if s.length ≠ 32 then none
  else
    let y := leNum s % 2 ^ 255 % p
    let u := (y * y + p - 1) % p
    let v := (d * (y * y % p) + 1) % p
    let v3 := v * v % p * v % p
    let x := u * v3 % p * powMod 252 (u * (v3 * v3 % p * v % p) % p) ((p - 5) / 8) % p
    let found : Option Nat :=
      if v * (x * x % p) % p = u then some x
      else if v * (x * x % p) % p = (p - u) % p then some (x * sqrtM1 % p)
      else none
    found.map fun x =>
      let x := if x % 2 = leNum s / 2 ^ 255 % 2 then x else (p - x) % p
      ⟨x, y, 1, x * y % p⟩

/-- `SetBytesWithClamping`: the secret scalar of a seed. -/
def clamp (h : Str) : Nat := leNum (h.take 32) % 2 ^ 254 / 8 * 8 + 2 ^ 254

/-- The public key of a 32-byte seed (`ed25519.NewKeyFromSeed`, auth/cryptosign.go:33,124). -/
def pubOfSeed (seed : Str) : Str := (Point.mul 255 (clamp (sha512 seed)) base).encode

/-- `ed25519.Sign` (auth/cryptosign.go:83); the private key is given by its seed. -/
def sign (seed m : Str) : Str :=
  let h := sha512 seed
  let r := leNum (sha512 (h.drop 32 ++ m)) % L
  let R := (Point.mul 255 r base).encode
  let k := leNum (sha512 (R ++ pubOfSeed seed ++ m)) % L
  R ++ leBytes 32 ((k * clamp h + r) % L)

/-- `ed25519.Verify` (called by `sign.Open`, auth/cryptosign.go:102): public key, message, signature. -/
def verify (pub m sig : Str) : Bool :=
  if sig.length ≠ 64 then false
  else
    match decode pub with
    | none => false
    | some A =>
      let S := leNum (sig.drop 32)
      if S < L then
        let k := leNum (sha512 (sig.take 32 ++ pub ++ m)) % L
        ((A.neg.mul 255 k).add (Point.mul 255 S base)).encode == sig.take 32
      else false

/-- All the primitives as Go's libraries compute them. -/
def real : Crypto := ⟨Sha256.hmac, Sha256.pbkdf2, pubOfSeed, sign, verify⟩

end Wamp.Ed25519
