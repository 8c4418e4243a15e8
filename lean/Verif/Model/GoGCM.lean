import Verif.Base.Bytes
import Verif.Base.BlockCipher
/-!
# GCM and CTR of crypto/cipher

`EncryptWithCustomScrypt` and `DecryptWithCustomScrypt` call `Seal` and `Open` of `cipher.NewGCM` (keypair/encrypt.go:119, 143,
232-242). They are not in /repo; they are written out here as in NIST SP 800-38D, which the Go standard library implements. The
block cipher stays a parameter.
-/
namespace Verif.GCM

/-- keypair/encrypt.go:119, 143 (calls crypto/cipher): a block as an element of the field of 2^128 elements; the first bit
is the coefficient of 1. This is multiplication by x. -/
def mulX (v : BitVec 128) : BitVec 128 :=
  if v.getLsbD 0 then (v >>> 1) ^^^ 0xe1000000000000000000000000000000#128 else v >>> 1

/-- keypair/encrypt.go:119, 143 (calls crypto/cipher): the loop of the multiplication, over the first bits of `x`. -/
def mulLoop : Nat → BitVec 128 → BitVec 128 → BitVec 128
  | 0, _, _ => 0
  | k + 1, x, v => (if x.getMsbD 0 then v else 0) ^^^ mulLoop k (x <<< 1) (mulX v)

/-- keypair/encrypt.go:119, 143 (calls crypto/cipher): multiplication of blocks. -/
def mul (x y : BitVec 128) : BitVec 128 := mulLoop 128 x y

/-- keypair/encrypt.go:119, 143 (calls crypto/cipher): the first `n` blocks of a byte string, filled up with zeros. -/
def takeBlocks : Nat → Bytes → List (BitVec 128)
  | 0, _ => []
  | n + 1, b => BitVec.ofNat 128 (natOfBytes (b.take 16 ++ zeros (16 - b.length))) :: takeBlocks n (b.drop 16)

/-- keypair/encrypt.go:119, 143 (calls crypto/cipher): a byte string as blocks, the last one filled up with zeros. -/
def blocks (b : Bytes) : List (BitVec 128) := takeBlocks ((b.length + 15) / 16) b

/-- keypair/encrypt.go:119, 143 (calls crypto/cipher): the blocks that are hashed: additional data, ciphertext and the two
lengths in bits. -/
def hashed (a c : Bytes) : List (BitVec 128) :=
  blocks a ++ blocks c ++ [BitVec.ofNat 128 (a.length * 8 * 2 ^ 64 + c.length * 8)]

/-- keypair/encrypt.go:119, 143 (calls crypto/cipher): `GHASH`. -/
def ghash (h : BitVec 128) (bs : List (BitVec 128)) : BitVec 128 := bs.foldl (fun y b => mul (y ^^^ b) h) 0

/-- keypair/encrypt.go:119, 143 (calls crypto/cipher): the counter block number `i` of a nonce of 12 bytes. -/
def counter (nonce : Bytes) (i : Nat) : Bytes := nonce ++ beFix 4 i

/-- keypair/encrypt.go:119, 143 (calls crypto/cipher): the first `len` bytes of the keystream, from counter 2 on. -/
def keystream (enc : Bytes → Bytes) (nonce : Bytes) (len : Nat) : Bytes :=
  ((List.range ((len + 15) / 16)).flatMap fun i => enc (counter nonce (i + 2))).take len

/-- keypair/encrypt.go:119, 143 (calls crypto/cipher): the hash key, the encrypted zero block. -/
def hashKey (enc : Bytes → Bytes) : BitVec 128 := BitVec.ofNat 128 (natOfBytes (enc (zeros 16)))

/-- keypair/encrypt.go:119, 143 (calls crypto/cipher): the tag. -/
def tag (enc : Bytes → Bytes) (nonce a c : Bytes) : Bytes :=
  xorBytes (beFix 16 (ghash (hashKey enc) (hashed a c)).toNat) (enc (counter nonce 1))

/-- keypair/encrypt.go:119 (calls crypto/cipher): `Seal(nil, nonce, p, a)`. Texts of more than 2^36 - 32 bytes, on which it
panics, are not treated apart. -/
def sealText (enc : Bytes → Bytes) (nonce p a : Bytes) : Bytes :=
  let c := xorBytes p (keystream enc nonce p.length)
  c ++ tag enc nonce a c

/-- keypair/encrypt.go:143 (calls crypto/cipher): `Open(nil, nonce, t, a)`. -/
def openText (enc : Bytes → Bytes) (nonce t a : Bytes) : Option Bytes :=
  if t.length < 16 then none
  else
    let c := t.take (t.length - 16)
    if tag enc nonce a c = t.drop (t.length - 16) then some (xorBytes c (keystream enc nonce c.length)) else none

/-- keypair/encrypt.go:251-252 (calls crypto/cipher): the first `len` bytes of the keystream of `NewCTR`. -/
def ctrStream (enc : Bytes → Bytes) (iv : Bytes) (len : Nat) : Bytes :=
  ((List.range ((len + 15) / 16)).flatMap fun i => enc (beFix 16 (natOfBytes iv + i))).take len

end Verif.GCM
