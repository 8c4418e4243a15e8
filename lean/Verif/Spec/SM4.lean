import Verif.Base.Bytes
/-!
# Specification of SM4 (GB/T 32907-2016)

Written from the standard: the constants CK by their formula, the S-box by its published algebraic
description `S(x) = A·(A·x + C)⁻¹ + C` over GF(2)[x]/(x⁸+x⁷+x⁶+x⁵+x⁴+x²+1), the rounds as a recurrence.
-/
namespace Verif.Spec.SM4

abbrev Word := BitVec 32

/-- Multiplication by `x` in GF(2⁸) modulo 0x1F5. -/
def xtime (a : Byte) : Byte := if a.msb then (a <<< 1) ^^^ 0xF5 else a <<< 1

/-- Multiplication in GF(2⁸): Horner over the bits of `b`, most significant first. -/
def gmul (a b : Byte) : Byte :=
  (List.range 8).foldl (fun acc i => xtime acc ^^^ (if b.getLsbD (7 - i) then a else 0)) 0

/-- Inverse in GF(2⁸) with `0 ↦ 0`: the power `a^254 = a^2 · a^4 · a^8 · a^16 · a^32 · a^64 · a^128`. -/
def ginv (a : Byte) : Byte :=
  let a2 := gmul a a
  let a4 := gmul a2 a2
  let a8 := gmul a4 a4
  let a16 := gmul a8 a8
  let a32 := gmul a16 a16
  let a64 := gmul a32 a32
  let a128 := gmul a64 a64
  gmul a2 (gmul a4 (gmul a8 (gmul a16 (gmul a32 (gmul a64 a128)))))

/-- Parity of the bits of a byte. -/
def parity (a : Byte) : Bool := (List.range 8).foldl (fun p i => p != a.getLsbD i) false

/-- The affine map's circulant matrix: row `i` is 0xA7 rotated left by `i`. -/
def affine (x : Byte) : Byte :=
  (List.range 8).foldl
    (fun acc i => acc ||| (if parity (x &&& (0xA7 : Byte).rotateLeft i) then (1 : Byte) <<< i else 0)) 0
    ^^^ 0xD3

/-- The S-box. -/
def S (x : Byte) : Byte := affine (ginv (affine x))

/-- Byte `i` (0 = most significant) of a word. -/
def byteOf (w : Word) (i : Nat) : Byte := w.extractLsb' (24 - 8 * i) 8

/-- The non-linear transformation τ: the S-box on each of the four bytes. -/
def tau (w : Word) : Word := S (byteOf w 0) ++ S (byteOf w 1) ++ S (byteOf w 2) ++ S (byteOf w 3)

/-- The linear transformations. -/
def L (b : Word) : Word :=
  b ^^^ b.rotateLeft 2 ^^^ b.rotateLeft 10 ^^^ b.rotateLeft 18 ^^^ b.rotateLeft 24
def L' (b : Word) : Word := b ^^^ b.rotateLeft 13 ^^^ b.rotateLeft 23

/-- System parameter FK. -/
def FK : Nat → Word
  | 0 => 0xA3B1BAC6 | 1 => 0x56AA3350 | 2 => 0x677D9197 | _ => 0xB27022DC

/-- Fixed parameter `CK_i`: its bytes are `ck_{i,j} = (4 i + j) * 7 mod 256`. -/
def CK (i : Nat) : Word :=
  BitVec.ofNat 8 ((4 * i) * 7) ++ BitVec.ofNat 8 ((4 * i + 1) * 7)
    ++ BitVec.ofNat 8 ((4 * i + 2) * 7) ++ BitVec.ofNat 8 ((4 * i + 3) * 7)

/-- The `i`-th big-endian word of a byte string. -/
def wordAt (b : Bytes) (i : Nat) : Word := BitVec.ofNat 32 (natOfBytes ((b.drop (4 * i)).take 4))

/-- The recurrence `Y_{i+4} = Y_i ⊕ g(Y_{i+1} ⊕ Y_{i+2} ⊕ Y_{i+3} ⊕ c_i)` with initial words `init`. -/
def recur (g : Word → Word) (c init : Nat → Word) : Nat → Word
  | 0 => init 0
  | 1 => init 1
  | 2 => init 2
  | 3 => init 3
  | i + 4 => recur g c init i ^^^
      g (recur g c init (i+1) ^^^ recur g c init (i+2) ^^^ recur g c init (i+3) ^^^ c i)

/-- Round key `rk_i = K_{i+4}`. -/
def rk (key : Bytes) (i : Nat) : Word :=
  recur (fun x => L' (tau x)) CK (fun j => wordAt key j ^^^ FK j) (i + 4)

/-- `X_i` for a block under the round keys `ks`. -/
def X (ks : Nat → Word) (block : Bytes) (i : Nat) : Word :=
  recur (fun x => L (tau x)) ks (wordAt block) i

/-- The output `(X_35, X_34, X_33, X_32)` as bytes. -/
def out (ks : Nat → Word) (block : Bytes) : Bytes :=
  beFix 4 (X ks block 35).toNat ++ beFix 4 (X ks block 34).toNat
    ++ beFix 4 (X ks block 33).toNat ++ beFix 4 (X ks block 32).toNat

/-- Encryption of a 16-byte block under a 16-byte key. -/
def encrypt (key block : Bytes) : Bytes := out (rk key) block

/-- Decryption: the round keys in reverse order. -/
def decrypt (key block : Bytes) : Bytes := out (fun i => rk key (31 - i)) block

end Verif.Spec.SM4
