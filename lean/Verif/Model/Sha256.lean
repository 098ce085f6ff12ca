import Verif.Model.Auth
/-!
# HMAC-SHA256 and PBKDF2

The rest of the model has these as parameters (`Crypto`).  Here they are computed, after FIPS 180-4, RFC 2104 and RFC 8018, in the way Go's
`crypto/sha256`, `crypto/hmac` and `golang.org/x/crypto/pbkdf2` compute them.
-/
namespace Wamp.Sha256

/-- The first 32 bits of the fractional parts of the cube roots of the first 64 primes (`_K` in crypto/sha256). -/
def K : List Nat :=
  [0x428a2f98, 0x71374491, 0xb5c0fbcf, 0xe9b5dba5, 0x3956c25b, 0x59f111f1, 0x923f82a4, 0xab1c5ed5,
   0xd807aa98, 0x12835b01, 0x243185be, 0x550c7dc3, 0x72be5d74, 0x80deb1fe, 0x9bdc06a7, 0xc19bf174,
   0xe49b69c1, 0xefbe4786, 0x0fc19dc6, 0x240ca1cc, 0x2de92c6f, 0x4a7484aa, 0x5cb0a9dc, 0x76f988da,
   0x983e5152, 0xa831c66d, 0xb00327c8, 0xbf597fc7, 0xc6e00bf3, 0xd5a79147, 0x06ca6351, 0x14292967,
   0x27b70a85, 0x2e1b2138, 0x4d2c6dfc, 0x53380d13, 0x650a7354, 0x766a0abb, 0x81c2c92e, 0x92722c85,
   0xa2bfe8a1, 0xa81a664b, 0xc24b8b70, 0xc76c51a3, 0xd192e819, 0xd6990624, 0xf40e3585, 0x106aa070,
   0x19a4c116, 0x1e376c08, 0x2748774c, 0x34b0bcb5, 0x391c0cb3, 0x4ed8aa4a, 0x5b9cca4f, 0x682e6ff3,
   0x748f82ee, 0x78a5636f, 0x84c87814, 0x8cc70208, 0x90befffa, 0xa4506ceb, 0xbef9a3f7, 0xc67178f2]

/-- The first 32 bits of the fractional parts of the square roots of the first 8 primes (`init0`…`init7` in crypto/sha256). -/
def H0 : List Nat :=
  [0x6a09e667, 0xbb67ae85, 0x3c6ef372, 0xa54ff53a, 0x510e527f, 0x9b05688c, 0x1f83d9ab, 0x5be0cd19]

/-- Addition of two 32-bit words. -/
def add (x y : Nat) : Nat := (x + y) % 4294967296
/-- Rotation of a 32-bit word to the right. -/
def rotr (x k : Nat) : Nat := (x >>> k) ||| (x <<< (32 - k)) % 4294967296

/-- `v1` and `v2` of the message schedule: the next word from the last sixteen (newest first). -/
def nextWord (ws : List Nat) : Nat :=
  let a := ws.getD 1 0
  let b := ws.getD 14 0
  let t1 := rotr a 17 ^^^ rotr a 19 ^^^ (a >>> 10)
  let t2 := rotr b 7 ^^^ rotr b 18 ^^^ (b >>> 3)
  add (add t1 (ws.getD 6 0)) (add t2 (ws.getD 15 0))

/-- The words of a block and the following `n` words of its schedule, newest first. -/
def schedule : Nat → List Nat → List Nat
  | 0, ws => ws
  | n + 1, ws => schedule n (nextWord ws :: ws)

/-- One round on the working variables `a … h`, with the sum of round constant and schedule word. -/
def round (s : List Nat) (kw : Nat) : List Nat :=
  match s with
  | [a, b, c, d, e, f, g, h] =>
    let t1 := add (add (add h (rotr e 6 ^^^ rotr e 11 ^^^ rotr e 25)) ((e &&& f) ^^^ ((4294967295 - e) &&& g))) kw
    let t2 := add (rotr a 2 ^^^ rotr a 13 ^^^ rotr a 22) ((a &&& b) ^^^ (a &&& c) ^^^ (b &&& c))
    [add t1 t2, a, b, c, add d t1, e, f, g]
  | _ => s

/-- Four bytes as a word, the highest first. -/
def words : Str → List Nat
  | a :: b :: c :: d :: r => (((a.toNat * 256 + b.toNat) * 256 + c.toNat) * 256 + d.toNat) :: words r
  | _ => []

/-- `block` of crypto/sha256: the state after one more block of 64 bytes. -/
def compress (s : List Nat) (block : Str) : List Nat :=
  List.zipWith add s ((List.zipWith add K (schedule 48 (words block).reverse).reverse).foldl round s)

/-- A number as `n` bytes, the highest first. -/
def bytes : Nat → Nat → Str
  | 0, _ => []
  | n + 1, x => bytes n (x / 256) ++ [UInt8.ofNat x]

/-- The padding of a message of `n` bytes: a one bit, zeros up to 8 bytes before the end of a block, the length in bits (`checkSum` of crypto/sha256). -/
def padding (n : Nat) : Str := 0x80 :: List.replicate ((119 - n % 64) % 64) 0 ++ bytes 8 (8 * n)

/-- Cut into blocks of 64 bytes (at most `n`). -/
def blocks : Nat → Str → List Str
  | 0, _ => []
  | n + 1, m => if m = [] then [] else m.take 64 :: blocks n (m.drop 64)

/-- SHA-256 (`sha256.New`, auth/wampcra.go:73,96). -/
def sha256 (m : Str) : Str :=
  ((blocks (m.length / 64 + 2) (m ++ padding m.length)).foldl compress H0).flatMap (bytes 4)

/-- The key as a block of 64 bytes (`hmac.New`): a longer key is hashed, a shorter one filled up with zeros. -/
def keyBlock (key : Str) : Str :=
  let k := if key.length > 64 then sha256 key else key
  k ++ List.replicate (64 - k.length) 0

/-- HMAC-SHA256 (`hmac.New(sha256.New, key)`, `Write`, `Sum`; auth/wampcra.go:73-75). -/
def hmac (key m : Str) : Str :=
  sha256 ((keyBlock key).map (· ^^^ 0x5c) ++ sha256 ((keyBlock key).map (· ^^^ 0x36) ++ m))

/-- The loop `for n := 2; n <= iter; n++` of `pbkdf2.Key` with `n` passes left, on `T` and `U`. -/
def stretch (password : Str) : Nat → Str → Str → Str
  | 0, t, _ => t
  | n + 1, t, u => stretch password n (List.zipWith (· ^^^ ·) t (hmac password u)) (hmac password u)

/-- Block number `i` of `pbkdf2.Key`. -/
def kdfBlock (password salt : Str) (iter : Int) (i : Nat) : Str :=
  let u := hmac password (salt ++ bytes 4 i)
  stretch password (iter - 1).toNat u u

/-- `pbkdf2.Key(password, salt, iter, keyLen, sha256.New)` (auth/wampcra.go:96) for a key length that is not negative. -/
def pbkdf2 (password salt : Str) (iter : Int) (keyLen : Nat) : Str :=
  (((List.range ((keyLen + 31) / 32)).map fun i => kdfBlock password salt iter (i + 1)).flatten).take keyLen

/-- The primitives of Go's libraries, except that Ed25519 remains a parameter. -/
def real (cr : Crypto) : Crypto := { cr with hmac := hmac, pbkdf2 := pbkdf2 }

end Wamp.Sha256
