import Verif.Base.Slice
/-!
# Model of package sm4 (sm4/const.go, sm4/block.go, sm4/cipher.go)
-/
namespace Verif.SM4

/-- sm4/block.go:29-33 -/
abbrev Word := BitVec 32

/-- sm4/const.go:28-30 `sm4_fk`. -/
def fk : List Word := [0xa3b1bac6, 0x56aa3350, 0x677d9197, 0xb27022dc]

/-- sm4/const.go:32-41 `sm4_ck`. -/
def ck : List Word := [
  0x00070e15, 0x1c232a31, 0x383f464d, 0x545b6269,
  0x70777e85, 0x8c939aa1, 0xa8afb6bd, 0xc4cbd2d9,
  0xe0e7eef5, 0xfc030a11, 0x181f262d, 0x343b4249,
  0x50575e65, 0x6c737a81, 0x888f969d, 0xa4abb2b9,
  0xc0c7ced5, 0xdce3eaf1, 0xf8ff060d, 0x141b2229,
  0x30373e45, 0x4c535a61, 0x686f767d, 0x848b9299,
  0xa0a7aeb5, 0xbcc3cad1, 0xd8dfe6ed, 0xf4fb0209,
  0x10171e25, 0x2c333a41, 0x484f565d, 0x646b7279]

/-- sm4/const.go:43-60 `sm4_sbox`. -/
def sbox : List Word := [
  0xd6, 0x90, 0xe9, 0xfe, 0xcc, 0xe1, 0x3d, 0xb7, 0x16, 0xb6, 0x14, 0xc2, 0x28, 0xfb, 0x2c, 0x05,
  0x2b, 0x67, 0x9a, 0x76, 0x2a, 0xbe, 0x04, 0xc3, 0xaa, 0x44, 0x13, 0x26, 0x49, 0x86, 0x06, 0x99,
  0x9c, 0x42, 0x50, 0xf4, 0x91, 0xef, 0x98, 0x7a, 0x33, 0x54, 0x0b, 0x43, 0xed, 0xcf, 0xac, 0x62,
  0xe4, 0xb3, 0x1c, 0xa9, 0xc9, 0x08, 0xe8, 0x95, 0x80, 0xdf, 0x94, 0xfa, 0x75, 0x8f, 0x3f, 0xa6,
  0x47, 0x07, 0xa7, 0xfc, 0xf3, 0x73, 0x17, 0xba, 0x83, 0x59, 0x3c, 0x19, 0xe6, 0x85, 0x4f, 0xa8,
  0x68, 0x6b, 0x81, 0xb2, 0x71, 0x64, 0xda, 0x8b, 0xf8, 0xeb, 0x0f, 0x4b, 0x70, 0x56, 0x9d, 0x35,
  0x1e, 0x24, 0x0e, 0x5e, 0x63, 0x58, 0xd1, 0xa2, 0x25, 0x22, 0x7c, 0x3b, 0x01, 0x21, 0x78, 0x87,
  0xd4, 0x00, 0x46, 0x57, 0x9f, 0xd3, 0x27, 0x52, 0x4c, 0x36, 0x02, 0xe7, 0xa0, 0xc4, 0xc8, 0x9e,
  0xea, 0xbf, 0x8a, 0xd2, 0x40, 0xc7, 0x38, 0xb5, 0xa3, 0xf7, 0xf2, 0xce, 0xf9, 0x61, 0x15, 0xa1,
  0xe0, 0xae, 0x5d, 0xa4, 0x9b, 0x34, 0x1a, 0x55, 0xad, 0x93, 0x32, 0x30, 0xf5, 0x8c, 0xb1, 0xe3,
  0x1d, 0xf6, 0xe2, 0x2e, 0x82, 0x66, 0xca, 0x60, 0xc0, 0x29, 0x23, 0xab, 0x0d, 0x53, 0x4e, 0x6f,
  0xd5, 0xdb, 0x37, 0x45, 0xde, 0xfd, 0x8e, 0x2f, 0x03, 0xff, 0x6a, 0x72, 0x6d, 0x6c, 0x5b, 0x51,
  0x8d, 0x1b, 0xaf, 0x92, 0xbb, 0xdd, 0xbc, 0x7f, 0x11, 0xd9, 0x5c, 0x41, 0x1f, 0x10, 0x5a, 0xd8,
  0x0a, 0xc1, 0x31, 0x88, 0xa5, 0xcd, 0x7b, 0xbd, 0x2d, 0x74, 0xd0, 0x12, 0xb8, 0xe5, 0xb4, 0xb0,
  0x89, 0x69, 0x97, 0x4a, 0x0c, 0x96, 0x77, 0x7e, 0x65, 0xb9, 0xf1, 0x09, 0xc5, 0x6e, 0xc6, 0x84,
  0x18, 0xf0, 0x7d, 0xec, 0x3a, 0xdc, 0x4d, 0x20, 0x79, 0xee, 0x5f, 0x3e, 0xd7, 0xcb, 0x39, 0x48]

/-- sm4/block.go:98-100: `sm4_sbox[b]` for a byte index (always in range: the table has 256 entries). -/
def sboxAt (b : Byte) : Word := sbox.getD b.toNat 0

/-- sm4/block.go:94-96 `sm4_rotl` (`i` is a uint8 constant below 32 at every call). -/
def rotl (x : Word) (i : Nat) : Word := (x <<< (i % 32)) ||| (x >>> (32 - i % 32))

/-- sm4/block.go:98-100 `sm4_tao`. -/
def tao (a : Word) : Word :=
  sboxAt (a.setWidth 8) ||| sboxAt ((a >>> 8).setWidth 8) <<< 8
    ||| sboxAt ((a >>> 16).setWidth 8) <<< 16 ||| sboxAt ((a >>> 24).setWidth 8) <<< 24

/-- sm4/block.go:102-104 `sm4_l`. -/
def l (b : Word) : Word := b ^^^ rotl b 2 ^^^ rotl b 10 ^^^ rotl b 18 ^^^ rotl b 24

/-- sm4/block.go:106-108 `sm4_t`. -/
def t (x : Word) : Word := l (tao x)

/-- sm4/block.go:110-112 `sm4_f`. -/
def f (x0 x1 x2 x3 rk : Word) : Word := x0 ^^^ t (x1 ^^^ x2 ^^^ x3 ^^^ rk)

/-- sm4/block.go:121-123 `sm4_kl`. -/
def kl (b : Word) : Word := b ^^^ rotl b 13 ^^^ rotl b 23

/-- sm4/block.go:125-127 `sm4_kt`. -/
def kt (x : Word) : Word := kl (tao x)

/-- sm4/block.go:30-31, 59: a state of four words (`m`, `k` in the code). -/
structure Quad where
  (a b c d : Word)
  deriving DecidableEq, Repr

/-- sm4/block.go:32-35, 61-64: `uint32(b)`. -/
def u32 (b : Byte) : Word := b.setWidth 32

/-- sm4/block.go:32-35, 61-64: big-endian word at byte offset `j`. -/
def loadWord (p : Bytes) (j : Nat) : Word :=
  u32 (p.getD j 0) <<< 24 ||| u32 (p.getD (j+1) 0) <<< 16 ||| u32 (p.getD (j+2) 0) <<< 8
    ||| u32 (p.getD (j+3) 0)

/-- sm4/block.go:61-64. -/
def loadQuad (p : Bytes) : Quad := ⟨loadWord p 0, loadWord p 4, loadWord p 8, loadWord p 12⟩

/-- sm4/block.go:42-48: one key-schedule step, returning the new `k` and `c.subkeys[i]`. -/
def keyStep (k : Quad) (c : Word) : Quad × Word :=
  let rk := k.a ^^^ kt (k.b ^^^ k.c ^^^ k.d ^^^ c)
  (⟨k.b, k.c, k.d, rk⟩, rk)

/-- sm4/block.go:42-48: the loop over the constants `sm4_ck[i]`. -/
def keyLoop : Quad → List Word → List Word
  | _, [] => []
  | k, c :: cs => (keyStep k c).2 :: keyLoop (keyStep k c).1 cs

/-- sm4/block.go:29-49 `generateSubkeys` (called only with 16 bytes). -/
def generateSubkeys (key : Bytes) : List Word :=
  let q := loadQuad key
  keyLoop ⟨q.a ^^^ fk.getD 0 0, q.b ^^^ fk.getD 1 0, q.c ^^^ fk.getD 2 0, q.d ^^^ fk.getD 3 0⟩ ck

/-- sm4/block.go:68-72, 76-80: one round with a round key. -/
def roundStep (m : Quad) (rk : Word) : Quad := ⟨m.b, m.c, m.d, f m.a m.b m.c m.d rk⟩

/-- sm4/block.go:66-82: the rounds; decryption runs over the round keys from last to first. -/
def rounds (subkeys : List Word) (m : Quad) (decrypt : Bool) : Quad :=
  if decrypt then subkeys.reverse.foldl roundStep m else subkeys.foldl roundStep m

/-- sm4/block.go:114-119 `sm4_r`. -/
def r (m : Quad) : Quad := ⟨m.d, m.c, m.b, m.a⟩

/-- sm4/block.go:87-90. -/
def wordBytes (s : Word) : Bytes :=
  [(s >>> 24).setWidth 8, (s >>> 16).setWidth 8, (s >>> 8).setWidth 8, s.setWidth 8]

/-- sm4/block.go:86-91. -/
def storeQuad (o : Quad) : Bytes := wordBytes o.a ++ wordBytes o.b ++ wordBytes o.c ++ wordBytes o.d

/-- sm4/block.go:58-92: the 16 output bytes of `cryptBlock` for the first 16 bytes of `src`. -/
def cryptBytes (subkeys : List Word) (src : Bytes) (decrypt : Bool) : Bytes :=
  storeQuad (r (rounds subkeys (loadQuad src) decrypt))

/-- sm4/block.go:58-92 `cryptBlock` on heap slices: all of `src[0..16)` is read (lines 61-64) before
anything is written (lines 86-91). A short `src` panics at the first out-of-range read; a short `dst`
panics at the first out-of-range write (after having written the bytes before it; that partial write
is not modelled here but in Model/Crash, the whole call is a panic). -/
def cryptBlock (subkeys : List Word) (h : Heap) (dst src : Slice) (decrypt : Bool) : Res Heap :=
  if src.len < 16 then .panic "index out of range"
  else if dst.len < 16 then .panic "index out of range"
  else .ok (h.store dst.arr dst.off (cryptBytes subkeys (src.read h) decrypt))

/-- sm4/cipher.go:43-45 `sm4Cipher`. -/
structure Cipher where
  subkeys : List Word
  deriving DecidableEq, Repr

/-- sm4/cipher.go:48-56 `NewCipher`; the error is `KeySizeError(len(key))`. -/
def newCipher (key : Bytes) : Except Nat Cipher :=
  if key.length ≠ 16 then .error key.length else .ok ⟨generateSubkeys key⟩

/-- sm4/cipher.go:60 `Encrypt`. -/
def Cipher.encrypt (c : Cipher) (h : Heap) (dst src : Slice) : Res Heap :=
  cryptBlock c.subkeys h dst src false

/-- sm4/cipher.go:62 `Decrypt`. -/
def Cipher.decrypt (c : Cipher) (h : Heap) (dst src : Slice) : Res Heap :=
  cryptBlock c.subkeys h dst src true

end Verif.SM4
