import Verif.Model.BigProg
import Verif.Model.P256Mult
/-!
# The curve methods of amd64 as programs on number objects

The arrays of words are local to each call (Model/P256Prog); here only the numbers are objects. `o` is the package
variable `p256` (sm2/curves.go:44).
-/
namespace Verif.Big

open Verif.X64

/-- sm2/p256_amd64.go:243-250 `p256GetScalar`: the words of the scalar. -/
def p256GetScalar (o : CurveObj) (scalar : Bytes) : Prog Nat := do
  let n ← newInt (natOfBytes scalar)
  let a ← read n
  let b ← read o.N
  if a ≥ b then mod n n o.N
  let a ← read n
  return a.natAbs

/-- sm2/p256_amd64.go:258-263 `maybeReduceModP`: the argument itself or a new number. -/
def maybeReduceModP (o : CurveObj) (a : Ref) : Prog Ref := do
  let x ← read a
  let p ← read o.P
  if x < p then return a
  else do
    let r ← newInt 0
    mod r a o.P
    return r

/-- sm2/p256_amd64.go:306-318, 272-286: the words of a point; `fromBig` (lines 230-239) takes the absolute value. -/
def fromXY (o : CurveObj) (x y : Ref) : Prog (P256.Jac Nat) := do
  let x ← maybeReduceModP o x
  let xv ← read x
  let y ← maybeReduceModP o y
  let yv ← read y
  return ⟨P256.mulP xv.natAbs P256.rr, P256.mulP yv.natAbs P256.rr, P256.oneM⟩

/-- sm2/p256_amd64.go:301-322 `ScalarMult`. -/
def scalarMult (o : CurveObj) (x y : Ref) (scalar : Bytes) : Prog (Ref × Ref) := do
  let k ← p256GetScalar o scalar
  let p ← fromXY o x y
  newPair (P256.pointToAffine (P256.pointMult p k))

/-- sm2/p256_amd64.go:292-299 `ScalarBaseMult`. -/
def scalarBaseMult (o : CurveObj) (scalar : Bytes) : Prog (Ref × Ref) := do
  let k ← p256GetScalar o scalar
  newPair (P256.pointToAffine (P256.baseMult (P256.baseTable P256.basePoint) k))

/-- sm2/p256_amd64.go:265-290 `CombinedMult`. -/
def combinedMult (o : CurveObj) (x y : Ref) (baseScalar scalar : Bytes) : Prog (Ref × Ref) := do
  let k ← p256GetScalar o baseScalar
  let l ← p256GetScalar o scalar
  let p ← fromXY o x y
  newPair (P256.pointToAffine (P256.pointAdd (P256.baseMult (P256.baseTable P256.basePoint) k) (P256.pointMult p l)))

/-- sm2/p256_amd64.go:138-141: a number that is too large is reduced, in a new object. -/
def inverseReduce (o : CurveObj) (k : Ref) : Prog Ref := do
  let kv ← read k
  let n ← read o.N
  if kv ≥ n then do
    let r ← newInt 0
    mod r k o.N
    return r
  else return k

/-- sm2/p256_amd64.go:133-136: a negative number is negated, in a new object. -/
def inverseAbs (k : Ref) : Prog Ref := do
  let kv ← read k
  if kv < 0 then newInt (-kv) else return k

/-- sm2/p256_amd64.go:132-227 `Inverse`. -/
def inverse (o : CurveObj) (k : Ref) : Prog Ref := do
  let k ← inverseAbs k
  let k ← inverseReduce o k
  let kv ← read k
  let c := P256.ordChain P256.mulN 0 (P256.mulN kv.natAbs P256.ordRR)
  newInt (P256.mulN (P256.ordWindows P256.mulN 0 c.1 c.2) 1)

end Verif.Big
