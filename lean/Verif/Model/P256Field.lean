/-
The arithmetic routines of sm2/p256_asm_amd64.s on whole 256-bit numbers.  Lemmas/P256Field proves
that the instructions of Model/P256Code compute exactly these functions, for all arguments below
2^256, so the rest of the amd64 code is modelled on top of them.
-/
import Verif.Model.P256Code

namespace Verif.X64.P256

/-- sm2/p256_amd64.go:41-45: the number in the four words at address `a`, least significant word first. -/
def rd4 (m : W → W) (a : W) : Nat :=
  (m a).toNat + 2 ^ 64 * (m (a + 8)).toNat + 2 ^ 128 * (m (a + 16)).toNat +
    2 ^ 192 * (m (a + 24)).toNat

/-- sm2/p256_amd64.go:41-45: write four words at address `a`, in the order in which the routines do it. -/
def wrWords (m : W → W) (a w0 w1 w2 w3 : W) : W → W :=
  upd (upd (upd (upd m a w0) (a + 8) w1) (a + 16) w2) (a + 24) w3

/-- sm2/p256_amd64.go:41-45: write a number below 2^256 in the four words at address `a`. -/
def wr4 (m : W → W) (a : W) (v : Nat) : W → W :=
  wrWords m a (BitVec.ofNat 64 v) (BitVec.ofNat 64 (v / 2 ^ 64)) (BitVec.ofNat 64 (v / 2 ^ 128))
    (BitVec.ofNat 64 (v / 2 ^ 192))

/-- sm2/p256_asm_amd64.s:65-68 (and sm2/p256.go): the field prime. -/
def P : Nat := 0xFFFFFFFEFFFFFFFFFFFFFFFFFFFFFFFFFFFFFFFF00000000FFFFFFFFFFFFFFFF

/-- sm2/p256_asm_amd64.s:60-63: the group order. -/
def N : Nat := 0xFFFFFFFEFFFFFFFFFFFFFFFFFFFFFFFF7203DF6B21C6052B53BBF40939D54123

/-- sm2/p256_asm_amd64.s:398-1711: Montgomery reduction as the routines do it: with `k = -q⁻¹ mod 2^256`, add
the multiple of `q` that clears the low 256 bits, drop them, subtract `q` once if the rest is at least `q`. -/
def redc (q k t : Nat) : Nat :=
  let m := t * k % 2 ^ 256
  let u := (t + m * q) / 2 ^ 256
  if u < q then u else u - q

/-- sm2/p256_asm_amd64.s:66-70: `-P⁻¹ mod 2^256`. -/
def Pk : Nat := 0xFFFFFFFC00000001FFFFFFFE00000000FFFFFFFF000000010000000000000001

/-- sm2/p256_asm_amd64.s:54, 61-64: `-N⁻¹ mod 2^256`. -/
def Nk : Nat := 0x6F39132F82E4C7BC2B0068D3B08941D4DF1E8D34FC8319A5327F9E8872350975

/-- sm2/p256_asm_amd64.s:398-635 (p256_sm2Mul) and 1755-1970 (p256_sm2MulInternal). -/
def mulP (a b : Nat) : Nat := redc P Pk (a * b)

/-- sm2/p256_asm_amd64.s:208-395 (p256_sm2Sqr) and 1972-2144 (p256_sm2SqrInternal). -/
def sqrP (a : Nat) : Nat := redc P Pk (a * a)

/-- sm2/p256_asm_amd64.s:929-1039 (p256_sm2FromMont). -/
def fromMontP (a : Nat) : Nat := redc P Pk a

/-- sm2/p256_asm_amd64.s:1176-1460 (p256_sm2OrdMul). -/
def mulN (a b : Nat) : Nat := redc N Nk (a * b)

/-- sm2/p256_asm_amd64.s:1729-1753 (p256_sm2SubInternal).  The correction is chosen by the zero
flag of `borrow + carry`: `P` is added when there was a borrow and that addition carries, but also
when there was no borrow and adding `P` does not carry. -/
def subP (a b : Nat) : Nat :=
  if b ≤ a then
    if a - b + P < 2 ^ 256 then a - b + P else a - b
  else if b ≤ a + P then a + P - b else a + 2 ^ 256 - b

/-- sm2/p256_asm_amd64.s:174-205 (p256_sm2NegCond): `P - a` modulo 2^256 if `c`. -/
def negP (a : Nat) (c : Bool) : Nat := if c then (P + 2 ^ 256 - a) % 2 ^ 256 else a

/-- sm2/p256_asm_amd64.s:2168-2187 (p256_sm2AddInline): subtract `P` once if possible and keep 256
bits. -/
def addP (a b : Nat) : Nat := if a + b < P then a + b else (a + b - P) % 2 ^ 256

/-- sm2/p256_asm_amd64.s:2147-2166 (p256_sm2MulBy2Inline). -/
def dblP (a : Nat) : Nat := addP a a

/-- sm2/p256_asm_amd64.s:2728-2752 (the "Divide by 2" part of p256_sm2PointDoubleAsm). -/
def halfP (a : Nat) : Nat := if a % 2 = 0 then a / 2 else (a + P) / 2

end Verif.X64.P256
