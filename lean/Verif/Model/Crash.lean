import Verif.Model.SM4
import Verif.Model.AES
/-!
# Memory after a call that fails

The calls that write to memory of the caller, byte by byte, with the memory that remains when they panic or return an
error: a program that recovers from the panic goes on with it.
-/
namespace Verif.Crash

/-- sm4/block.go:61-64: reads `src[i]`, `src[i+1]`, ... (`n` bytes); the first index out of range panics. -/
def readBytes (h : Heap) (src : Slice) : Nat → Nat → Res Bytes
  | 0, _ => .ok []
  | n + 1, i =>
    if i < src.len then (readBytes h src n (i + 1)).map fun l => (h.mem src.arr).getD (src.off + i) 0 :: l
    else .panic "index out of range"

/-- sm4/block.go:86-91: `dst[i] = out[0]`, `dst[i+1] = out[1]`, ...; the first index out of range panics and the bytes
written before stay. -/
def writeBytes (dst : Slice) : Bytes → Nat → Heap → Heap × Res Unit
  | [], _, h => (h, .ok ())
  | b :: out, i, h =>
    if i < dst.len then writeBytes dst out (i + 1) (h.store dst.arr (dst.off + i) [b])
    else (h, .panic "index out of range")

/-- sm4/block.go:58-92 `cryptBlock`. -/
def cryptBlock (subkeys : List SM4.Word) (dst src : Slice) (decrypt : Bool) (h : Heap) : Heap × Res Unit :=
  match readBytes h src 16 0 with
  | .ok m => writeBytes dst (SM4.cryptBytes subkeys m decrypt) 0 h
  | .err e => (h, .err e)
  | .panic e => (h, .panic e)

/-- aes/aes.go:66-71 `PKCS5Padding`: `blockSize - len(src)%blockSize` and `bytes.Repeat` come before `append`. -/
def pkcs5Padding (src : Slice) (blockSize : Int) (h : Heap) : Heap × Res Slice :=
  if blockSize = 0 then (h, .panic "integer divide by zero")
  else if blockSize < 0 then (h, .panic "bytes: negative Repeat count")
  else
    let r := h.append src (AES.padText src.len blockSize.toNat)
    (r.1, .ok r.2)

/-- aes/aes.go:28-41 `AesEncrypt`: the padding (line 34) comes before the check of the iv in NewCBCEncrypter
(line 35). -/
def aesEncrypt (c : BlockCipher) (plaintext : Slice) (key iv : Bytes) (h : Heap) : Heap × Res Slice :=
  if c.keyOk key = false then (h, .err "invalid decrypt key")
  else
    match pkcs5Padding plaintext 16 h with
    | (h, .ok plaintext) =>
      if iv.length ≠ 16 then (h, .panic "cipher.NewCBCEncrypter: IV length must equal block size")
      else
        let r := h.alloc (cbcEnc c key (plaintext.len / 16) iv (plaintext.read h))
        (r.1, .ok r.2)
    | (h, .err e) => (h, .err e)
    | (h, .panic e) => (h, .panic e)

end Verif.Crash
