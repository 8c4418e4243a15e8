import Verif.Base.Bytes
import Verif.Base.BlockCipher
/-!
# SHA-256, HMAC, PBKDF2 and scrypt

`kdf` (keypair/encrypt.go:221-230) calls `scrypt.Key` of golang.org/x/crypto in the version of go.mod, which calls `pbkdf2.Key` with
`sha256.New`; `saltFromAddress` (keypair/encrypt.go:214-219) calls `sha256.Sum256`. They are not in /repo; they are written out here
as in FIPS 180-4, RFC 2104, RFC 8018 and RFC 7914, with the checks of the parameters that `scrypt.Key` makes on a 64-bit machine.
Simplified: memory never runs out; the iteration count of PBKDF2 is 1, as in both calls of `scrypt.Key`.
-/
namespace Verif.Scrypt

/-- keypair/encrypt.go:228 (calls scrypt.Key): words of SHA-256 and Salsa20. -/
abbrev Word := BitVec 32

/-- keypair/encrypt.go:216-217, 228 (calls sha256): the constants of the 64 rounds. -/
def roundConst : List Word := [
  0x428a2f98, 0x71374491, 0xb5c0fbcf, 0xe9b5dba5, 0x3956c25b, 0x59f111f1, 0x923f82a4, 0xab1c5ed5,
  0xd807aa98, 0x12835b01, 0x243185be, 0x550c7dc3, 0x72be5d74, 0x80deb1fe, 0x9bdc06a7, 0xc19bf174,
  0xe49b69c1, 0xefbe4786, 0x0fc19dc6, 0x240ca1cc, 0x2de92c6f, 0x4a7484aa, 0x5cb0a9dc, 0x76f988da,
  0x983e5152, 0xa831c66d, 0xb00327c8, 0xbf597fc7, 0xc6e00bf3, 0xd5a79147, 0x06ca6351, 0x14292967,
  0x27b70a85, 0x2e1b2138, 0x4d2c6dfc, 0x53380d13, 0x650a7354, 0x766a0abb, 0x81c2c92e, 0x92722c85,
  0xa2bfe8a1, 0xa81a664b, 0xc24b8b70, 0xc76c51a3, 0xd192e819, 0xd6990624, 0xf40e3585, 0x106aa070,
  0x19a4c116, 0x1e376c08, 0x2748774c, 0x34b0bcb5, 0x391c0cb3, 0x4ed8aa4a, 0x5b9cca4f, 0x682e6ff3,
  0x748f82ee, 0x78a5636f, 0x84c87814, 0x8cc70208, 0x90befffa, 0xa4506ceb, 0xbef9a3f7, 0xc67178f2]

/-- keypair/encrypt.go:216-217, 228 (calls sha256): the eight words of the state. -/
structure H where
  (a b c d e f g h : Word)
  deriving DecidableEq, Repr

/-- keypair/encrypt.go:216-217, 228 (calls sha256): the initial state. -/
def init : H := ⟨0x6a09e667, 0xbb67ae85, 0x3c6ef372, 0xa54ff53a, 0x510e527f, 0x9b05688c, 0x1f83d9ab, 0x5be0cd19⟩

/-- keypair/encrypt.go:216-217, 228 (calls sha256): rotation to the right. -/
def rotr (x : Word) (n : Nat) : Word := (x >>> n) ||| (x <<< (32 - n))

/-- keypair/encrypt.go:216-217, 228 (calls sha256): one round. -/
def round (k w : Word) (s : H) : H :=
  let t1 := s.h + (rotr s.e 6 ^^^ rotr s.e 11 ^^^ rotr s.e 25) + ((s.e &&& s.f) ^^^ (~~~s.e &&& s.g)) + k + w
  let t2 := (rotr s.a 2 ^^^ rotr s.a 13 ^^^ rotr s.a 22) + ((s.a &&& s.b) ^^^ (s.a &&& s.c) ^^^ (s.b &&& s.c))
  ⟨t1 + t2, s.a, s.b, s.c, s.d + t1, s.e, s.f, s.g⟩

/-- keypair/encrypt.go:216-217, 228 (calls sha256): the next word of the message schedule after the 16 words `w`. -/
def nextWord (w : List Word) : Word :=
  let x := w.getD 1 0
  let y := w.getD 14 0
  (rotr y 17 ^^^ rotr y 19 ^^^ (y >>> 10)) + w.getD 9 0 + (rotr x 7 ^^^ rotr x 18 ^^^ (x >>> 3)) + w.getD 0 0

/-- keypair/encrypt.go:216-217, 228 (calls sha256): rounds with the constants `ks`; `w` are the next 16 words of the schedule. -/
def rounds : List Word → List Word → H → H
  | [], _, s => s
  | k :: ks, w, s => rounds ks (w.tail ++ [nextWord w]) (round k (w.getD 0 0) s)

/-- keypair/encrypt.go:216-217, 228 (calls sha256): a big-endian word. -/
def beWord (b : Bytes) : Word := BitVec.ofNat 32 (natOfBytes b)

/-- keypair/encrypt.go:216-217, 228 (calls sha256): one block of 64 bytes. -/
def compress (s : H) (p : Bytes) : H :=
  let r := rounds roundConst ((List.range 16).map fun i => beWord ((p.drop (4 * i)).take 4)) s
  ⟨s.a + r.a, s.b + r.b, s.c + r.c, s.d + r.d, s.e + r.e, s.f + r.f, s.g + r.g, s.h + r.h⟩

/-- keypair/encrypt.go:216-217, 228 (calls sha256): `n` blocks. -/
def blocks : Nat → H → Bytes → H
  | 0, s, _ => s
  | n + 1, s, p => blocks n (compress s (p.take 64)) (p.drop 64)

/-- keypair/encrypt.go:216-217, 228 (calls sha256): the message with its padding. -/
def shaPad (m : Bytes) : Bytes := m ++ 0x80 :: zeros ((119 - m.length % 64) % 64) ++ beFix 8 (8 * m.length)

/-- keypair/encrypt.go:216-217, 228 (calls sha256): SHA-256. -/
def sha256 (m : Bytes) : Bytes :=
  let s := blocks ((shaPad m).length / 64) init (shaPad m)
  beFix 4 s.a.toNat ++ beFix 4 s.b.toNat ++ beFix 4 s.c.toNat ++ beFix 4 s.d.toNat ++
    beFix 4 s.e.toNat ++ beFix 4 s.f.toNat ++ beFix 4 s.g.toNat ++ beFix 4 s.h.toNat

/-- keypair/encrypt.go:228 (calls hmac.New): the key of HMAC: long keys are hashed, then zeros are added up to 64 bytes. -/
def hmacKey (k : Bytes) : Bytes :=
  let k := if k.length > 64 then sha256 k else k
  k ++ zeros (64 - k.length)

/-- keypair/encrypt.go:228 (calls hmac): HMAC with SHA-256. -/
def hmac (k m : Bytes) : Bytes :=
  sha256 ((hmacKey k).map (· ^^^ 0x5c) ++ sha256 ((hmacKey k).map (· ^^^ 0x36) ++ m))

/-- keypair/encrypt.go:228 (calls pbkdf2.Key): PBKDF2 with one iteration. -/
def pbkdf2 (pwd salt : Bytes) (len : Nat) : Bytes :=
  ((List.range ((len + 31) / 32)).flatMap fun i => hmac pwd (salt ++ beFix 4 (i + 1))).take len

/-- keypair/encrypt.go:228 (calls scrypt.Key): rotation to the left. -/
def rotl (x : Word) (n : Nat) : Word := (x <<< n) ||| (x >>> (32 - n))

/-- keypair/encrypt.go:228 (calls scrypt.Key): a quarter of a round of Salsa20. -/
def quarter (a b c d : Word) : Word × Word × Word × Word :=
  let b := b ^^^ rotl (a + d) 7
  let c := c ^^^ rotl (b + a) 9
  let d := d ^^^ rotl (c + b) 13
  let a := a ^^^ rotl (d + c) 18
  (a, b, c, d)

/-- keypair/encrypt.go:228 (calls scrypt.Key): a double round on 16 words: columns, then rows, each from the diagonal on. -/
def doubleRound : List Word → List Word
  | [x0, x1, x2, x3, x4, x5, x6, x7, x8, x9, x10, x11, x12, x13, x14, x15] =>
    let (x0, x4, x8, x12) := quarter x0 x4 x8 x12
    let (x5, x9, x13, x1) := quarter x5 x9 x13 x1
    let (x10, x14, x2, x6) := quarter x10 x14 x2 x6
    let (x15, x3, x7, x11) := quarter x15 x3 x7 x11
    let (x0, x1, x2, x3) := quarter x0 x1 x2 x3
    let (x5, x6, x7, x4) := quarter x5 x6 x7 x4
    let (x10, x11, x8, x9) := quarter x10 x11 x8 x9
    let (x15, x12, x13, x14) := quarter x15 x12 x13 x14
    [x0, x1, x2, x3, x4, x5, x6, x7, x8, x9, x10, x11, x12, x13, x14, x15]
  | x => x

/-- keypair/encrypt.go:228 (calls scrypt.Key): `salsaXOR`: Salsa20/8 of the exclusive or of two blocks of 16 words. -/
def salsa (t x : List Word) : List Word :=
  let w := List.zipWith (· ^^^ ·) t x
  List.zipWith (· + ·) (doubleRound (doubleRound (doubleRound (doubleRound w)))) w

/-- keypair/encrypt.go:228 (calls scrypt.Key): the chain of `blockMix` over `n` blocks of 16 words. -/
def chain : Nat → List Word → List Word → List (List Word)
  | 0, _, _ => []
  | n + 1, t, b => salsa t (b.take 16) :: chain n (salsa t (b.take 16)) (b.drop 16)

/-- keypair/encrypt.go:228 (calls scrypt.Key): `blockMix`: the blocks of even, then those of odd number. -/
def blockMix (r : Nat) (b : List Word) : List Word :=
  let y := chain (2 * r) (b.drop (32 * r - 16)) b
  ((List.range r).flatMap fun i => y.getD (2 * i) []) ++ (List.range r).flatMap fun i => y.getD (2 * i + 1) []

/-- keypair/encrypt.go:228 (calls scrypt.Key): `integer`: the lower 64 bits of the last block. -/
def integer (r : Nat) (b : List Word) : Nat :=
  (b.getD ((2 * r - 1) * 16) 0).toNat + 2 ^ 32 * (b.getD ((2 * r - 1) * 16 + 1) 0).toNat

/-- keypair/encrypt.go:228 (calls scrypt.Key): the first loop of `smix`: the table and the last value. -/
def fill (r : Nat) : Nat → List Word → List (List Word) × List Word
  | 0, x => ([], x)
  | n + 1, x => let o := fill r n (blockMix r x); (x :: o.1, o.2)

/-- keypair/encrypt.go:228 (calls scrypt.Key): the second loop of `smix`. -/
def look (r N : Nat) (v : List (List Word)) : Nat → List Word → List Word
  | 0, x => x
  | n + 1, x => look r N v n (blockMix r (List.zipWith (· ^^^ ·) x (v.getD (integer r x % N) [])))

/-- keypair/encrypt.go:228 (calls scrypt.Key): a little-endian word. -/
def leWord (b : Bytes) : Word := BitVec.ofNat 32 (natOfBytes b.reverse)

/-- keypair/encrypt.go:228 (calls scrypt.Key): `smix` on `128 r` bytes. -/
def smix (r N : Nat) (b : Bytes) : Bytes :=
  let x := (List.range (32 * r)).map fun i => leWord ((b.drop (4 * i)).take 4)
  let o := fill r N x
  (look r N o.1 N o.2).flatMap fun w => (beFix 4 w.toNat).reverse

/-- keypair/encrypt.go:228 (calls scrypt.Key): the derivation for parameters that passed the checks. -/
def derive (pwd salt : Bytes) (N r p len : Nat) : Bytes :=
  let b := pbkdf2 pwd salt (p * 128 * r)
  pbkdf2 pwd ((List.range p).flatMap fun i => smix r N ((b.drop (i * 128 * r)).take (128 * r))) len

/-- keypair/encrypt.go:228 (calls scrypt.Key): the greatest `int`. -/
def maxInt : Int := 2 ^ 63 - 1

/-- keypair/encrypt.go:228: `scrypt.Key` for parameters that are 64-bit integers. `N & (N-1)` is taken of natural numbers, as it
is looked at for `N > 1` only. A negative length makes `pbkdf2.Key` panic (the caller asks for at least 32). -/
def key (pwd salt : Bytes) (N r p len : Int) : Res Bytes :=
  if N ≤ 1 ∨ N.toNat &&& (N.toNat - 1) ≠ 0 then .err "scrypt: N must be > 1 and a power of 2"
  else if (r * p) % 2 ^ 64 ≥ 2 ^ 30 then .err "scrypt: parameters are too large"
  else if p = 0 then .panic "integer divide by zero"
  else if r > (maxInt.tdiv 128).tdiv p then .err "scrypt: parameters are too large"
  else if r > maxInt.tdiv 256 then .err "scrypt: parameters are too large"
  else if r = 0 then .panic "integer divide by zero"
  else if N > (maxInt.tdiv 128).tdiv r then .err "scrypt: parameters are too large"
  else if len < 0 then .panic "slice bounds out of range"
  else .ok (derive pwd salt N.toNat r.toNat p.toNat len.toNat)

end Verif.Scrypt
