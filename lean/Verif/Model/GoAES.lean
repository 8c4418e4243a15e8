import Verif.Base.Bytes
import Verif.Base.BlockCipher
/-!
# AES of crypto/aes

`AesEncrypt`, `AesDecrypt` and the encryption of private keys call `aes.NewCipher` of the Go standard library (aes/aes.go:29, 44;
keypair/encrypt.go:233, 246). It is not in /repo; it is written out here as in FIPS 197, which the library implements with
tables or with processor instructions. The state is a list of 16 bytes, column after column.
-/
namespace Verif.GoAES

/-- aes/aes.go:29, 44 (calls crypto/aes): the S-box. -/
def sboxTable : List Byte := [
  0x63, 0x7c, 0x77, 0x7b, 0xf2, 0x6b, 0x6f, 0xc5, 0x30, 0x01, 0x67, 0x2b, 0xfe, 0xd7, 0xab, 0x76,
  0xca, 0x82, 0xc9, 0x7d, 0xfa, 0x59, 0x47, 0xf0, 0xad, 0xd4, 0xa2, 0xaf, 0x9c, 0xa4, 0x72, 0xc0,
  0xb7, 0xfd, 0x93, 0x26, 0x36, 0x3f, 0xf7, 0xcc, 0x34, 0xa5, 0xe5, 0xf1, 0x71, 0xd8, 0x31, 0x15,
  0x04, 0xc7, 0x23, 0xc3, 0x18, 0x96, 0x05, 0x9a, 0x07, 0x12, 0x80, 0xe2, 0xeb, 0x27, 0xb2, 0x75,
  0x09, 0x83, 0x2c, 0x1a, 0x1b, 0x6e, 0x5a, 0xa0, 0x52, 0x3b, 0xd6, 0xb3, 0x29, 0xe3, 0x2f, 0x84,
  0x53, 0xd1, 0x00, 0xed, 0x20, 0xfc, 0xb1, 0x5b, 0x6a, 0xcb, 0xbe, 0x39, 0x4a, 0x4c, 0x58, 0xcf,
  0xd0, 0xef, 0xaa, 0xfb, 0x43, 0x4d, 0x33, 0x85, 0x45, 0xf9, 0x02, 0x7f, 0x50, 0x3c, 0x9f, 0xa8,
  0x51, 0xa3, 0x40, 0x8f, 0x92, 0x9d, 0x38, 0xf5, 0xbc, 0xb6, 0xda, 0x21, 0x10, 0xff, 0xf3, 0xd2,
  0xcd, 0x0c, 0x13, 0xec, 0x5f, 0x97, 0x44, 0x17, 0xc4, 0xa7, 0x7e, 0x3d, 0x64, 0x5d, 0x19, 0x73,
  0x60, 0x81, 0x4f, 0xdc, 0x22, 0x2a, 0x90, 0x88, 0x46, 0xee, 0xb8, 0x14, 0xde, 0x5e, 0x0b, 0xdb,
  0xe0, 0x32, 0x3a, 0x0a, 0x49, 0x06, 0x24, 0x5c, 0xc2, 0xd3, 0xac, 0x62, 0x91, 0x95, 0xe4, 0x79,
  0xe7, 0xc8, 0x37, 0x6d, 0x8d, 0xd5, 0x4e, 0xa9, 0x6c, 0x56, 0xf4, 0xea, 0x65, 0x7a, 0xae, 0x08,
  0xba, 0x78, 0x25, 0x2e, 0x1c, 0xa6, 0xb4, 0xc6, 0xe8, 0xdd, 0x74, 0x1f, 0x4b, 0xbd, 0x8b, 0x8a,
  0x70, 0x3e, 0xb5, 0x66, 0x48, 0x03, 0xf6, 0x0e, 0x61, 0x35, 0x57, 0xb9, 0x86, 0xc1, 0x1d, 0x9e,
  0xe1, 0xf8, 0x98, 0x11, 0x69, 0xd9, 0x8e, 0x94, 0x9b, 0x1e, 0x87, 0xe9, 0xce, 0x55, 0x28, 0xdf,
  0x8c, 0xa1, 0x89, 0x0d, 0xbf, 0xe6, 0x42, 0x68, 0x41, 0x99, 0x2d, 0x0f, 0xb0, 0x54, 0xbb, 0x16]

/-- aes/aes.go:44 (calls crypto/aes): the inverse S-box. -/
def invSboxTable : List Byte := [
  0x52, 0x09, 0x6a, 0xd5, 0x30, 0x36, 0xa5, 0x38, 0xbf, 0x40, 0xa3, 0x9e, 0x81, 0xf3, 0xd7, 0xfb,
  0x7c, 0xe3, 0x39, 0x82, 0x9b, 0x2f, 0xff, 0x87, 0x34, 0x8e, 0x43, 0x44, 0xc4, 0xde, 0xe9, 0xcb,
  0x54, 0x7b, 0x94, 0x32, 0xa6, 0xc2, 0x23, 0x3d, 0xee, 0x4c, 0x95, 0x0b, 0x42, 0xfa, 0xc3, 0x4e,
  0x08, 0x2e, 0xa1, 0x66, 0x28, 0xd9, 0x24, 0xb2, 0x76, 0x5b, 0xa2, 0x49, 0x6d, 0x8b, 0xd1, 0x25,
  0x72, 0xf8, 0xf6, 0x64, 0x86, 0x68, 0x98, 0x16, 0xd4, 0xa4, 0x5c, 0xcc, 0x5d, 0x65, 0xb6, 0x92,
  0x6c, 0x70, 0x48, 0x50, 0xfd, 0xed, 0xb9, 0xda, 0x5e, 0x15, 0x46, 0x57, 0xa7, 0x8d, 0x9d, 0x84,
  0x90, 0xd8, 0xab, 0x00, 0x8c, 0xbc, 0xd3, 0x0a, 0xf7, 0xe4, 0x58, 0x05, 0xb8, 0xb3, 0x45, 0x06,
  0xd0, 0x2c, 0x1e, 0x8f, 0xca, 0x3f, 0x0f, 0x02, 0xc1, 0xaf, 0xbd, 0x03, 0x01, 0x13, 0x8a, 0x6b,
  0x3a, 0x91, 0x11, 0x41, 0x4f, 0x67, 0xdc, 0xea, 0x97, 0xf2, 0xcf, 0xce, 0xf0, 0xb4, 0xe6, 0x73,
  0x96, 0xac, 0x74, 0x22, 0xe7, 0xad, 0x35, 0x85, 0xe2, 0xf9, 0x37, 0xe8, 0x1c, 0x75, 0xdf, 0x6e,
  0x47, 0xf1, 0x1a, 0x71, 0x1d, 0x29, 0xc5, 0x89, 0x6f, 0xb7, 0x62, 0x0e, 0xaa, 0x18, 0xbe, 0x1b,
  0xfc, 0x56, 0x3e, 0x4b, 0xc6, 0xd2, 0x79, 0x20, 0x9a, 0xdb, 0xc0, 0xfe, 0x78, 0xcd, 0x5a, 0xf4,
  0x1f, 0xdd, 0xa8, 0x33, 0x88, 0x07, 0xc7, 0x31, 0xb1, 0x12, 0x10, 0x59, 0x27, 0x80, 0xec, 0x5f,
  0x60, 0x51, 0x7f, 0xa9, 0x19, 0xb5, 0x4a, 0x0d, 0x2d, 0xe5, 0x7a, 0x9f, 0x93, 0xc9, 0x9c, 0xef,
  0xa0, 0xe0, 0x3b, 0x4d, 0xae, 0x2a, 0xf5, 0xb0, 0xc8, 0xeb, 0xbb, 0x3c, 0x83, 0x53, 0x99, 0x61,
  0x17, 0x2b, 0x04, 0x7e, 0xba, 0x77, 0xd6, 0x26, 0xe1, 0x69, 0x14, 0x63, 0x55, 0x21, 0x0c, 0x7d]

/-- aes/aes.go:29, 44 (calls crypto/aes): the S-box applied to a byte. -/
def sbox (b : Byte) : Byte := sboxTable.getD b.toNat 0

/-- aes/aes.go:44 (calls crypto/aes): the inverse S-box applied to a byte. -/
def invSbox (b : Byte) : Byte := invSboxTable.getD b.toNat 0

/-- aes/aes.go:29, 44 (calls crypto/aes): multiplication by x in the field of 256 elements. -/
def xtime (b : Byte) : Byte := (b <<< 1) ^^^ (if b.msb then 0x1b else 0)

/-- aes/aes.go:29, 44 (calls crypto/aes): multiplication by a constant below 16. -/
def mul (c : Nat) (b : Byte) : Byte :=
  (if c.testBit 0 then b else 0) ^^^ (if c.testBit 1 then xtime b else 0) ^^^
    (if c.testBit 2 then xtime (xtime b) else 0) ^^^ (if c.testBit 3 then xtime (xtime (xtime b)) else 0)

/-- aes/aes.go:29, 44 (calls crypto/aes): a state, given byte by byte. -/
def state (f : Nat → Byte) : Bytes := (List.range 16).map f

/-- aes/aes.go:29, 44 (calls crypto/aes): `SubBytes`. -/
def subBytes (s : Bytes) : Bytes := state fun i => sbox (s.getD i 0)

/-- aes/aes.go:44 (calls crypto/aes): `InvSubBytes`. -/
def invSubBytes (s : Bytes) : Bytes := state fun i => invSbox (s.getD i 0)

/-- aes/aes.go:29, 44 (calls crypto/aes): `ShiftRows`: row r of column c comes from column c + r. -/
def shiftRows (s : Bytes) : Bytes := state fun i => s.getD (i % 4 + 4 * ((i / 4 + i % 4) % 4)) 0

/-- aes/aes.go:44 (calls crypto/aes): `InvShiftRows`. -/
def invShiftRows (s : Bytes) : Bytes := state fun i => s.getD (i % 4 + 4 * ((i / 4 + 4 - i % 4) % 4)) 0

/-- aes/aes.go:29, 44 (calls crypto/aes): byte `r` of column `c` of a state. -/
def at' (s : Bytes) (c r : Nat) : Byte := s.getD (4 * c + r % 4) 0

/-- aes/aes.go:29, 44 (calls crypto/aes): `MixColumns`. -/
def mixColumns (s : Bytes) : Bytes := state fun i =>
  let c := i / 4
  let r := i % 4
  mul 2 (at' s c r) ^^^ mul 3 (at' s c (r + 1)) ^^^ at' s c (r + 2) ^^^ at' s c (r + 3)

/-- aes/aes.go:44 (calls crypto/aes): `InvMixColumns`. -/
def invMixColumns (s : Bytes) : Bytes := state fun i =>
  let c := i / 4
  let r := i % 4
  mul 14 (at' s c r) ^^^ mul 11 (at' s c (r + 1)) ^^^ mul 13 (at' s c (r + 2)) ^^^ mul 9 (at' s c (r + 3))

/-- aes/aes.go:29, 44 (calls crypto/aes): `AddRoundKey`. -/
def addKey (s k : Bytes) : Bytes := state fun i => s.getD i 0 ^^^ k.getD i 0

/-- aes/aes.go:29, 44 (calls crypto/aes): the round constant of word `j * nk`. -/
def rcon : Nat → Byte
  | 0 => 0x8d
  | j + 1 => xtime (rcon j)

/-- aes/aes.go:29, 44 (calls crypto/aes): `SubWord`. -/
def subWord (w : Bytes) : Bytes := w.map sbox

/-- aes/aes.go:29, 44 (calls crypto/aes): `RotWord`. -/
def rotWord (w : Bytes) : Bytes := w.drop 1 ++ w.take 1

/-- aes/aes.go:29, 44 (calls crypto/aes): the loop of the key expansion, for keys of `nk` words. -/
def expand (nk : Nat) : Nat → List Bytes → List Bytes
  | 0, ws => ws
  | fuel + 1, ws =>
    let i := ws.length
    let t := ws.getD (i - 1) []
    let t := if i % nk = 0 then xorBytes (subWord (rotWord t)) [rcon (i / nk), 0, 0, 0]
      else if nk > 6 ∧ i % nk = 4 then subWord t else t
    expand nk fuel (ws ++ [xorBytes (ws.getD (i - nk) []) t])

/-- aes/aes.go:29, 44 (calls crypto/aes): the round keys: 11, 13 or 15 for keys of 16, 24 or 32 bytes. -/
def roundKeys (key : Bytes) : List Bytes :=
  let nk := key.length / 4
  let ws := expand nk (4 * (nk + 7) - nk) ((List.range nk).map fun i => (key.drop (4 * i)).take 4)
  (List.range (nk + 7)).map fun r => ((ws.drop (4 * r)).take 4).flatten

/-- aes/aes.go:29, 44 (calls crypto/aes): a round of the cipher. -/
def round (s k : Bytes) : Bytes := addKey (mixColumns (shiftRows (subBytes s))) k

/-- aes/aes.go:44 (calls crypto/aes): a round of the inverse cipher. -/
def invRound (s k : Bytes) : Bytes := invMixColumns (addKey (invSubBytes (invShiftRows s)) k)

/-- aes/aes.go:29, 44 (calls crypto/aes): the cipher with given round keys. -/
def cipher (ks : List Bytes) (s : Bytes) : Bytes :=
  match ks with
  | [] => state fun i => s.getD i 0
  | k0 :: ks => addKey (shiftRows (subBytes (ks.dropLast.foldl round (addKey s k0)))) (ks.getLast?.getD [])

/-- aes/aes.go:44 (calls crypto/aes): the inverse cipher with given round keys. -/
def invCipher (ks : List Bytes) (s : Bytes) : Bytes :=
  match ks.reverse with
  | [] => state fun i => s.getD i 0
  | kn :: ks => addKey (invSubBytes (invShiftRows (ks.dropLast.foldl invRound (addKey s kn)))) (ks.getLast?.getD [])

/-- aes/aes.go:29, 44 (calls crypto/aes): `aes.NewCipher` and the methods of its result. -/
def aes : BlockCipher where
  keyOk k := k.length == 16 || k.length == 24 || k.length == 32
  enc k b := cipher (roundKeys k) b
  dec k b := invCipher (roundKeys k) b

end Verif.GoAES
