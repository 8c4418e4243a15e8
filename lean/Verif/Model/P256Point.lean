/-
The point routines of sm2/p256_asm_amd64.s on whole numbers.  Lemmas/P256Sim proves that their
instructions compute these functions on 256-bit numbers.

The formulas are written for an arbitrary type of field elements, because the proofs use them at
three types: the 256-bit numbers with the exact results of the assembly (`Nat`), the same with
"unknown" once a subtraction has been given operands for which it returns a wrong residue
(`Option Nat`), and the field itself.
-/
import Verif.Model.P256Field

namespace Verif.X64.P256

/-- The operations on field elements of the point routines. -/
class Ops (F : Type) where
  /-- p256_sm2Mul, p256_sm2MulInternal -/
  mul : F → F → F
  /-- p256_sm2SubInternal -/
  sub : F → F → F
  /-- p256_sm2AddInline -/
  add : F → F → F
  /-- "Divide by 2" -/
  half : F → F
  /-- p256_sm2NegCond with a non-zero condition -/
  neg : F → F
  /-- The negation of in2 in p256_sm2PointAddAffineAsm -/
  negA : F → F
  /-- Four zero words -/
  zero : F
  /-- p256_sm2one: one in the Montgomery domain -/
  one : F

export Ops (mul sub add half neg negA)

/-- sm2/p256_amd64.go:41-45: a point in Jacobian coordinates, the twelve words of p256Point. -/
structure Jac (F : Type) where
  x : F
  y : F
  z : F
  deriving DecidableEq, Repr

section
variable {F : Type} [Ops F]

/-- sm2/p256_asm_amd64.s:208-396, 1972-2144: p256_sm2Sqr, p256_sm2SqrInternal: the same as a product with
itself. -/
def sq (a : F) : F := mul a a

/-- sm2/p256_asm_amd64.s:2147-2165: p256_sm2MulBy2Inline: the same as the sum with itself. -/
def dbl (a : F) : F := add a a

/-- sm2/p256_asm_amd64.s:2535-2618 (p256_sm2PointAddAsm). -/
def pointAdd (a b : Jac F) : Jac F :=
  let z2sq := sq b.z
  let s1 := mul (mul z2sq b.z) a.y
  let z1sq := sq a.z
  let s2 := mul (mul z1sq a.z) b.y
  let r := sub s2 s1
  let u1 := mul z2sq a.x
  let u2 := mul z1sq b.x
  let h := sub u2 u1
  let rsq := sq r
  let hsq := sq h
  let hcub := mul hsq h
  let w := mul hcub s1
  let z3 := mul (mul a.z b.z) h
  let v := mul hsq u1
  let x3 := sub (sub rsq (dbl v)) hcub
  ⟨x3, sub (mul (sub v x3) r) w, z3⟩

/-- sm2/p256_asm_amd64.s:2292-2358 (p256_sm2PointAddAffineAsm, the addition itself). -/
def addAffine (a : Jac F) (x2 y2 : F) : Jac F :=
  let z1sq := sq a.z
  let h := sub (mul z1sq x2) a.x
  let z3 := mul h a.z
  let r := sub (mul (mul z1sq a.z) y2) a.y
  let rsq := sq r
  let hsq := sq h
  let hcub := mul hsq h
  let w := mul hcub a.y
  let v := mul a.x hsq
  let x3 := sub (sub rsq (dbl v)) hcub
  ⟨x3, sub (mul (sub v x3) r) w, z3⟩

/-- sm2/p256_asm_amd64.s:2216-2454 (p256_sm2PointAddAffineAsm): in2 is negated if `sign`; the
result is in1 if `sel` is 0, and in2 if `zero` is 0 (which is looked at last). -/
def pointAddAffine (one : F) (a : Jac F) (x2 y2 : F) (sign : Bool) (sel zero : Nat) : Jac F :=
  let y2 := if sign then negA y2 else y2
  if zero = 0 then ⟨x2, y2, one⟩ else if sel = 0 then a else addAffine a x2 y2

/-- sm2/p256_asm_amd64.s:2670-2792 (p256_sm2PointDoubleAsm). -/
def pointDouble (a : Jac F) : Jac F :=
  let zsq := sq a.z
  let m := add zsq a.x
  let z3 := dbl (mul a.z a.y)
  let m := mul (sub a.x zsq) m
  let m := add m (dbl m)
  let s := sq (dbl a.y)
  let y4 := half (sq s)
  let s := mul a.x s
  let x3 := sub (sq m) (dbl s)
  ⟨x3, sub (mul (sub s x3) m) y4, z3⟩

end

/-- sm2/p256_asm_amd64.s:79-82 (p256_sm2one): 2^256 modulo p. -/
def oneM : Nat := 0x100000000000000000000000000000000FFFFFFFF0000000000000001

/-- The exact arithmetic of the assembly on 256-bit numbers. -/
instance : Ops Nat where
  mul := mulP
  sub := subP
  add := addP
  half := halfP
  neg a := negP a true
  negA a := subP P a
  zero := 0
  one := oneM

end Verif.X64.P256
