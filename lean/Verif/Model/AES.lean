import Verif.Base.Slice
import Verif.Base.BlockCipher
/-!
# Model of package aes (aes/aes.go)

crypto/aes is the parameter `c : BlockCipher`; the CBC mode of crypto/cipher is `cbcEnc`/`cbcDec`
(its constructors panic when the iv is not one block long).
-/
namespace Verif.AES

/-- aes/aes.go:67-68: the bytes PKCS5Padding appends (`byte(padding)` truncates to 8 bits).
`blockSize` is positive here; a zero block size panics (division by zero). -/
def padText (len blockSize : Nat) : Bytes :=
  let padding := blockSize - len % blockSize
  List.replicate padding (BitVec.ofNat 8 padding)

/-- aes/aes.go:66-71 `PKCS5Padding` on heap slices: `append(src, padtext...)`. With a negative block size the
remainder is not negative (Go truncates), so `padding` is negative and `bytes.Repeat` panics. -/
def pkcs5Padding (h : Heap) (src : Slice) (blockSize : Int) : Res (Heap × Slice) :=
  if blockSize = 0 then .panic "integer divide by zero"
  else if blockSize < 0 then .panic "bytes: negative Repeat count"
  else .ok (h.append src (padText src.len blockSize.toNat))

/-- aes/aes.go:73-80 `PKCS5UnPadding`; `src[length-1]` panics on an empty slice. -/
def pkcs5UnPadding (src : Bytes) : Res Bytes :=
  if src.length = 0 then .panic "index out of range"
  else
    let unpadding := (src.getD (src.length - 1) 0).toNat
    if unpadding > src.length then .err "unpadding error: invalid paddding length"
    else .ok (src.take (src.length - unpadding))

/-- aes/aes.go:28-41 `AesEncrypt` on a heap: the plaintext is a slice; key and iv are only read. -/
def aesEncrypt (c : BlockCipher) (h : Heap) (plaintext : Slice) (key iv : Bytes) :
    Res (Heap × Slice) :=
  if c.keyOk key = false then .err "invalid decrypt key"
  else
    (pkcs5Padding h plaintext 16).bind fun (h, plaintext) =>
      if iv.length ≠ 16 then .panic "cipher.NewCBCEncrypter: IV length must equal block size"
      else .ok (h.alloc (cbcEnc c key (plaintext.len / 16) iv (plaintext.read h)))

/-- aes/aes.go:43-64 `AesDecrypt`. -/
def aesDecrypt (c : BlockCipher) (ciphertext key iv : Bytes) : Res Bytes :=
  if c.keyOk key = false then .err "invalid decrypt key"
  else if ciphertext.length < 16 then .err "ciphertext too short"
  else if ciphertext.length % 16 ≠ 0 then .err "ciphertext is not a multiple of the block size"
  else if iv.length ≠ 16 then .panic "cipher.NewCBCDecrypter: IV length must equal block size"
  else pkcs5UnPadding (cbcDec c key (ciphertext.length / 16) iv ciphertext)

end Verif.AES
