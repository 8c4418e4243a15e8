import Verif.Base.Bytes
/-!
# External block ciphers and the CBC and CTR modes of crypto/cipher

`BlockCipher` stands for `crypto/aes.NewCipher`. The laws used by the properties are in
`BlockCipher.Lawful`; SM4 (proved in `Props/SM4.lean`) is an instance, so they are satisfiable.
-/
namespace Verif

/-- crypto/aes: which keys `NewCipher` accepts, and the two block functions. -/
structure BlockCipher where
  keyOk : Bytes → Bool
  enc : Bytes → Bytes → Bytes
  dec : Bytes → Bytes → Bytes

/-- The documented behaviour of crypto/aes: key sizes 16, 24, 32; 16-byte blocks; `dec` inverts `enc`. -/
structure BlockCipher.Lawful (c : BlockCipher) : Prop where
  keyOk_iff : ∀ k, c.keyOk k = true ↔ (k.length = 16 ∨ k.length = 24 ∨ k.length = 32)
  enc_length : ∀ k b, b.length = 16 → (c.enc k b).length = 16
  dec_length : ∀ k b, b.length = 16 → (c.dec k b).length = 16
  dec_enc : ∀ k b, c.keyOk k = true → b.length = 16 → c.dec k (c.enc k b) = b

/-- Bytewise xor. -/
def xorBytes (a b : Bytes) : Bytes := List.zipWith (· ^^^ ·) a b

/-- crypto/cipher CBC encryption of `n` whole 16-byte blocks. -/
def cbcEnc (c : BlockCipher) (key : Bytes) : Nat → Bytes → Bytes → Bytes
  | 0, _, _ => []
  | n + 1, iv, p =>
    let o := c.enc key (xorBytes (p.take 16) iv)
    o ++ cbcEnc c key n o (p.drop 16)

/-- crypto/cipher CBC decryption of `n` whole 16-byte blocks. -/
def cbcDec (c : BlockCipher) (key : Bytes) : Nat → Bytes → Bytes → Bytes
  | 0, _, _ => []
  | n + 1, iv, p =>
    xorBytes (c.dec key (p.take 16)) iv ++ cbcDec c key n (p.take 16) (p.drop 16)

end Verif
