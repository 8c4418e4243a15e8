import Verif.Spec.CurveOps
import Verif.Base.Bytes
/-!
# The curve methods on platforms without assembly

sm2/curves.go:42-45 embeds `*elliptic.CurveParams`, so that on platforms other than amd64 the SM2 curve has the
methods of that type. They belong to the Go standard library (crypto/elliptic/elliptic.go) and are not in /repo; they
are written out here as they stand in the releases of Go that the repository was made for. `big.Int` is `Int`, `Mod`
is the Euclidean remainder. The curves P-384 and P-521 of crypto/elliptic used the same methods then; P-224 and P-256
had implementations of their own.
-/
namespace Verif.Generic
open Verif.Spec

/-- sm2/curves.go:38-45 (embeds `elliptic.CurveParams`): Jacobian coordinates. -/
structure Jac where
  x : Int
  y : Int
  z : Int
  deriving DecidableEq, Repr

/-- sm2/curves.go:38-45 (embeds `elliptic.CurveParams`): `if v.Sign() == -1 { v.Add(v, curve.P) }` -/
def fixNeg (P v : Int) : Int := if v < 0 then v + P else v

/-- The equation that `CurveParams.IsOnCurve` (embedded by sm2/curves.go:43) checks: `y² = x³ - 3x + b`. -/
def equation (c : Curve) (x y : Int) : Bool :=
  let y2 := y * y % c.P
  let x3 := x * x * x
  let threeX := x * 2 + x
  decide ((x3 - threeX + c.B) % c.P = y2)

/-- `CurveParams.IsOnCurve` (embedded by sm2/curves.go:43). Since Go 1.17.7 coordinates that are negative or not below
`P` are refused (`checked`); before, they were not looked at. -/
def isOnCurve (checked : Bool) (c : Curve) (x y : Int) : Bool :=
  if checked = true ∧ (x < 0 ∨ (c.P : Int) ≤ x ∨ y < 0 ∨ (c.P : Int) ≤ y) then false
  else equation c x y

/-- `zForAffine` (embedded by sm2/curves.go:43). -/
def zForAffine (x y : Int) : Int := if x ≠ 0 ∨ y ≠ 0 then 1 else 0

/-- sm2/curves.go:38-45 (embeds `elliptic.CurveParams`): `big.Int.ModInverse(z, P)` for a `z` that has an
inverse: by the extended Euclidean algorithm. -/
def modInverse (z P : Int) : Int := Nat.gcdA z.toNat P.toNat % P

/-- `CurveParams.affineFromJacobian` (embedded by sm2/curves.go:43). -/
def affineFromJacobian (P : Int) (j : Jac) : Int × Int :=
  if j.z = 0 then (0, 0)
  else
    let zinv := modInverse j.z P
    let zinvsq := zinv * zinv
    let xOut := j.x * zinvsq % P
    let zinvsq := zinvsq * zinv
    let yOut := j.y * zinvsq % P
    (xOut, yOut)

/-- `CurveParams.doubleJacobian` (embedded by sm2/curves.go:43). -/
def doubleJacobian (P : Int) (j : Jac) : Jac :=
  let delta := j.z * j.z % P
  let gamma := j.y * j.y % P
  let alpha := fixNeg P (j.x - delta)
  let alpha2 := j.x + delta
  let alpha := alpha * alpha2
  let alpha := alpha * 2 + alpha
  let beta := j.x * gamma
  let beta8 := beta * 8 % P
  let x3 := fixNeg P (alpha * alpha - beta8) % P
  let z3 := (j.y + j.z) * (j.y + j.z)
  let z3 := fixNeg P (z3 - gamma)
  let z3 := fixNeg P (z3 - delta) % P
  let beta := fixNeg P (beta * 4 - x3)
  let y3 := alpha * beta
  let gamma := gamma * gamma * 8 % P
  let y3 := fixNeg P (y3 - gamma) % P
  ⟨x3, y3, z3⟩

/-- `CurveParams.addJacobian` (embedded by sm2/curves.go:43). -/
def addJacobian (P : Int) (a b : Jac) : Jac :=
  if a.z = 0 then b
  else if b.z = 0 then a
  else
    let z1z1 := a.z * a.z % P
    let z2z2 := b.z * b.z % P
    let u1 := a.x * z2z2 % P
    let u2 := b.x * z1z1 % P
    let h := u2 - u1
    let xEqual := h = 0
    let h := fixNeg P h
    let i := h * 2 * (h * 2)
    let j := h * i
    let s1 := a.y * b.z * z2z2 % P
    let s2 := b.y * a.z * z1z1 % P
    let r := fixNeg P (s2 - s1)
    let yEqual := r = 0
    if xEqual ∧ yEqual then doubleJacobian P a
    else
      let r := r * 2
      let v := u1 * i
      let x3 := (r * r - j - v - v) % P
      let y3 := (r * (v - x3) - s1 * j * 2) % P
      let z3 := ((a.z + b.z) * (a.z + b.z) - z1z1 - z2z2) * h % P
      ⟨x3, y3, z3⟩

/-- `CurveParams.Add` (embedded by sm2/curves.go:43). -/
def add (c : Curve) (p q : Int × Int) : Int × Int :=
  affineFromJacobian c.P (addJacobian c.P ⟨p.1, p.2, zForAffine p.1 p.2⟩ ⟨q.1, q.2, zForAffine q.1 q.2⟩)

/-- `CurveParams.Double` (embedded by sm2/curves.go:43). -/
def double (c : Curve) (p : Int × Int) : Int × Int :=
  affineFromJacobian c.P (doubleJacobian c.P ⟨p.1, p.2, zForAffine p.1 p.2⟩)

/-- sm2/curves.go:38-45 (embeds `elliptic.CurveParams`): one bit of the loop of `ScalarMult`. -/
def bitStep (P : Int) (b : Jac) (acc : Jac) (bit : Bool) : Jac :=
  let acc := doubleJacobian P acc
  if bit then addJacobian P b acc else acc

/-- sm2/curves.go:38-45 (embeds `elliptic.CurveParams`): the inner loop of `ScalarMult`: the bits of a byte,
the highest first (`byte&0x80`, `byte <<= 1`). -/
def byteStep (P : Int) (b : Jac) (acc : Jac) (byte : Byte) : Jac :=
  ((List.range 8).map fun i => byte.getMsbD i).foldl (bitStep P b) acc

/-- `CurveParams.ScalarMult` (embedded by sm2/curves.go:43). -/
def scalarMult (c : Curve) (p : Int × Int) (k : Bytes) : Int × Int :=
  affineFromJacobian c.P (k.foldl (byteStep c.P ⟨p.1, p.2, 1⟩) ⟨0, 0, 0⟩)

/-- `CurveParams.ScalarBaseMult` (embedded by sm2/curves.go:43). -/
def scalarBaseMult (c : Curve) (k : Bytes) : Int × Int := scalarMult c (c.Gx, c.Gy) k

/-- sm2/curves.go:38-45 (embeds `elliptic.CurveParams`): the methods in the form of the parameter of the
models of packages sm2, vrf and signature: coordinates are naturals, scalars are passed as `k.Bytes()`. -/
def ops (c : Curve) : CurveOps where
  baseMult k := ((scalarBaseMult c (bytesOfNat k)).1.toNat, (scalarBaseMult c (bytesOfNat k)).2.toNat)
  mult p k := ((scalarMult c (p.1, p.2) (bytesOfNat k)).1.toNat, (scalarMult c (p.1, p.2) (bytesOfNat k)).2.toNat)
  add p q := ((add c (p.1, p.2) (q.1, q.2)).1.toNat, (add c (p.1, p.2) (q.1, q.2)).2.toNat)

end Verif.Generic
