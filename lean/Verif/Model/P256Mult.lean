/-
The Go part of the amd64 implementation (sm2/p256_amd64.go): inversions, recoding of scalars, the
table of multiples of the base point, and the scalar multiplications.

The code calls the assembly on slices of []uint64 arrays.  Each routine reads all its operands
before it writes its result, for any overlap of its arguments (Lemmas/P256Refine, P256Points,
P256Affine, P256Select), so a call is modelled here as the assignment of a value: four words are a
number, twelve words are a `Jac`.  The functions that work on field elements are written for any
`Ops`; the program is the instance `Nat`.
-/
import Verif.Model.P256Point
import Verif.Base.Bytes

namespace Verif.X64.P256

/-! ### Scalars -/

/-- sm2/p256_amd64.go:230-239 (fromBig): word `i` of the number `k` (below 2^256). -/
def word (k i : Nat) : W := BitVec.ofNat 64 (k / 2 ^ (64 * i))

/-- sm2/p256_amd64.go:243-250 (p256GetScalar). -/
def getScalar (scalar : Bytes) : Nat :=
  let n := natOfBytes scalar
  if N ≤ n then n % N else n

/-- sm2/p256_amd64.go:449-455 (boothW5): digit and sign. -/
def boothW5 (w : W) : W × W :=
  let s := ~~~((w >>> 5) - 1)
  let d := (1 <<< 6) - w - 1
  let d := (d &&& s) ||| (w &&& ~~~s)
  let d := (d >>> 1) + (d &&& 1)
  (d, s &&& 1)

/-- sm2/p256_amd64.go:457-463 (boothW7). -/
def boothW7 (w : W) : W × W :=
  let s := ~~~((w >>> 7) - 1)
  let d := (1 <<< 8) - w - 1
  let d := (d &&& s) ||| (w &&& ~~~s)
  let d := (d >>> 1) + (d &&& 1)
  (d, s &&& 1)

/-- sm2/p256_amd64.go:547-551 and 623-627: the bits of the scalar from `index` on that `mask`
keeps. -/
def window (k index : Nat) (mask : W) : W :=
  if index < 192 then
    ((word k (index / 64) >>> (index % 64)) +
      (word k (index / 64 + 1) <<< (64 - index % 64))) &&& mask
  else (word k (index / 64) >>> (index % 64)) &&& mask

/-! ### Routines of the assembly, as values -/

/-- sm2/p256_asm_amd64.s:120-171: p256_sm2MovCond(res, a, b, cond), which looks at 32 bits of `cond`. -/
def movVal {α : Type} (a b : α) (cond : W) : α := if cond.toNat % 2 ^ 32 = 0 then b else a

section
variable {F : Type} [Ops F]

/-- sm2/p256_asm_amd64.s:1041-1101: p256_sm2Select(point, table, idx). -/
def selectVal (table : List (Jac F)) (idx : W) : Jac F :=
  if 1 ≤ idx.toNat % 2 ^ 32 ∧ idx.toNat % 2 ^ 32 ≤ 16 then
    table.getD (idx.toNat % 2 ^ 32 - 1) ⟨Ops.zero, Ops.zero, Ops.zero⟩
  else ⟨Ops.zero, Ops.zero, Ops.zero⟩

/-- sm2/p256_asm_amd64.s:174-205: p256_sm2NegCond(val, cond). -/
def negVal (a : F) (cond : W) : F := if cond = 0 then a else neg a

/-- sm2/p256_asm_amd64.s:1104-1173: p256_sm2SelectBase(point, table, idx), with the entries of the table given
by a function. -/
def selectBaseVal (table : Nat → F × F) (idx : W) : F × F :=
  if 1 ≤ idx.toNat % 2 ^ 32 ∧ idx.toNat % 2 ^ 32 ≤ 64 then table (idx.toNat % 2 ^ 32 - 1)
  else (Ops.zero, Ops.zero)

/-! ### Inversion and affine coordinates -/

/-- sm2/p256_amd64.go:368-432: `n` times p256_sm2Sqr(out, out). -/
def sqN (n : Nat) (a : F) : F := n.repeat sq a

/-- sm2/p256_amd64.go:345-443 (p256Inverse). -/
def invP (a : F) : F :=
  let p2 := mul (sq a) a
  let p4 := mul (sq (sq p2)) p2
  let p8 := mul (sqN 3 (sq p4)) p4
  let p16 := mul (sqN 7 (sq p8)) p8
  let p32 := mul (sqN 15 (sq p16)) p16
  let out := mul (sqN 7 (sq p16)) p8
  let out := mul (sqN 4 out) p4
  let out := mul (sqN 2 out) p2
  let out := sq (mul (sq out) a)
  let out := mul (sqN 32 out) p32
  let out := mul (sqN 32 out) p32
  let out := mul (sqN 32 out) p32
  let out := mul (sqN 32 out) p32
  let out := mul (sqN 64 out) p32
  let out := mul (sqN 16 out) p16
  let out := mul (sqN 8 out) p8
  let out := mul (sqN 4 out) p4
  let out := mul (sqN 2 out) p2
  mul (sqN 2 out) a

/-- sm2/p256_amd64.go:325-332 (p256PointToAffine) and 494-500 (initTable): affine coordinates in
the Montgomery domain. -/
def toAffine (j : Jac F) : F × F :=
  let zInv := invP j.z
  let zInvSq := sq zInv
  let zInv := mul zInv zInvSq
  (mul j.x zInvSq, mul j.y zInv)

/-! ### Multiplication of a point -/

/-- sm2/p256_amd64.go:567-607 (p256ScalarMult): the multiples 1 to 16 of `p`. -/
def precomp (p : Jac F) : List (Jac F) :=
  let e2 := pointDouble p
  let e4 := pointDouble e2
  let e8 := pointDouble e4
  let e16 := pointDouble e8
  let e3 := pointAdd e2 p
  let e5 := pointAdd e4 p
  let e9 := pointAdd e8 p
  let e6 := pointDouble e3
  let e10 := pointDouble e5
  let e7 := pointAdd e6 p
  let e11 := pointAdd e10 p
  let e12 := pointDouble e6
  let e14 := pointDouble e7
  let e13 := pointAdd e12 p
  let e15 := pointAdd e14 p
  [p, e2, e3, e4, e5, e6, e7, e8, e9, e10, e11, e12, e13, e14, e15, e16]

/-- sm2/p256_amd64.go:615-637 and 640-653: five doublings and the addition of one digit. -/
def multStep (table : List (Jac F)) (st : Jac F × W) (w : W) : Jac F × W :=
  let p := pointDouble (pointDouble (pointDouble (pointDouble (pointDouble st.1))))
  let d := boothW5 w
  let t0 := selectVal table d.1
  let t0 : Jac F := ⟨t0.x, negVal t0.y d.2, t0.z⟩
  let t1 := pointAdd p t0
  let t1 := movVal t1 p d.1
  (movVal t1 t0 st.2, st.2 ||| d.1)

/-- sm2/p256_amd64.go:609-638 (p256ScalarMult): the digits but the last, for
index = 254, 249, ..., 4. -/
def multScan (table : List (Jac F)) (k : Nat) : Jac F × W :=
  let sel := (boothW5 ((word k 3 >>> 62) &&& 0x3f)).1
  (List.range 50).foldl (fun st i => multStep table st (window k (249 - 5 * i) 0x3f))
    (selectVal table sel, sel)

/-- sm2/p256_amd64.go:561-654 (p256ScalarMult). -/
def pointMult (p : Jac F) (k : Nat) : Jac F :=
  let table := precomp p
  (multStep table (multScan table k) ((word k 0 <<< 1) &&& 0x3f)).1

/-! ### Multiplication of the base point -/

/-- sm2/p256_amd64.go:490-503 (initTable): the affine form of a point, with z = 1. -/
def norm (t : Jac F) : Jac F :=
  let a := toAffine t
  ⟨a.1, a.2, Ops.one⟩

/-- sm2/p256_amd64.go:483-506 (initTable, the loop over i): t1 in round `i`, from t2. -/
def tableCol (t : Jac F) : Nat → Jac F
  | 0 => norm t
  | i + 1 => norm (Nat.repeat pointDouble 7 (tableCol t i))

/-- sm2/p256_amd64.go:479-512 (initTable, the loop over j): t2 in round `j`. -/
def tableRow (base : Jac F) : Nat → Jac F
  | 0 => base
  | 1 => pointDouble base
  | j + 2 => pointAdd (tableRow base (j + 1)) base

/-- sm2/p256_amd64.go:465-513 (initTable): p256Precomputed[i][8*j:8*j+8]. -/
def baseTable (base : Jac F) (i j : Nat) : F × F :=
  let t := tableCol (tableRow base j) i
  (t.x, t.y)

/-- sm2/p256_amd64.go:546-557 (p256BaseMult): round `i` of the loop. -/
def baseStep (table : Nat → Nat → F × F) (k : Nat) (st : Jac F × W) (i : Nat) : Jac F × W :=
  let d := boothW7 (window k (7 * i - 1) 0xff)
  let t0 := selectBaseVal (table i) d.1
  (pointAddAffine Ops.one st.1 t0.1 t0.2 (decide (d.2 ≠ 0)) (d.1.toNat % 2 ^ 32)
    (st.2.toNat % 2 ^ 32), st.2 ||| d.1)

/-- sm2/p256_amd64.go:515-559 (p256BaseMult). -/
def baseMult (table : Nat → Nat → F × F) (k : Nat) : Jac F :=
  let d := boothW7 ((word k 0 <<< 1) &&& 0xff)
  let t := selectBaseVal (table 0) d.1
  ((List.range 36).foldl (fun st i => baseStep table k st (i + 1))
    (⟨t.1, negVal t.2 d.2, Ops.one⟩, d.1)).1

end

/-! ### The methods of the curve -/

/-- sm2/p256_amd64.go:256 (rr): 2^512 modulo p. -/
def rr : Nat := 0x0000000400000002000000010000000100000002FFFFFFFF0000000200000003

/-- sm2/p256_amd64.go:258-263 (maybeReduceModP).  Negative numbers are not modelled. -/
def reduceModP (a : Nat) : Nat := if a < P then a else a % P

/-- sm2/p256_amd64.go:306-318 (ScalarMult) and 272-286 (CombinedMult): a point given by its affine
coordinates in the form the routines work on. -/
def fromXY (x y : Nat) : Jac Nat := ⟨mulP (reduceModP x) rr, mulP (reduceModP y) rr, oneM⟩

/-- sm2/p256_amd64.go:324-343 (p256PointToAffine).  The byte order reversal and SetBytes give the
number in the four words (`C78_bytes`). -/
def pointToAffine (j : Jac Nat) : Nat × Nat :=
  let a := toAffine j
  (fromMontP a.1, fromMontP a.2)

/-- sm2/p256_amd64.go:301-322 (ScalarMult). -/
def scalarMult (x y : Nat) (scalar : Bytes) : Nat × Nat :=
  pointToAffine (pointMult (fromXY x y) (getScalar scalar))

/-- sm2/p256_amd64.go:468-476 (initTable, basePoint). -/
def basePoint : Jac Nat :=
  ⟨0x91167A5EE1C13B05D6A1ED99AC24C3C33E7981EDDCA6C05061328990F418029E,
   0x63CD65D481D735BD8D4CFB066E2A48F8C1F5E5788D3295FAC1354E593C2D0DDD, oneM⟩

/-- sm2/p256_amd64.go:292-299 (ScalarBaseMult). -/
def scalarBaseMult (scalar : Bytes) : Nat × Nat :=
  pointToAffine (baseMult (baseTable basePoint) (getScalar scalar))

/-- sm2/p256_amd64.go:265-290 (CombinedMult). -/
def combinedMult (x y : Nat) (baseScalar scalar : Bytes) : Nat × Nat :=
  pointToAffine (pointAdd (baseMult (baseTable basePoint) (getScalar baseScalar))
    (pointMult (fromXY x y) (getScalar scalar)))

/-! ### Inversion modulo the group order -/

/-- sm2/p256_amd64.go:112-118 (p256_sm2OrdSqr2) with four-word operands, for any multiplication. -/
def ordSqN {F : Type} (m : F → F → F) (n : Nat) (a : F) : F := n.repeat (fun a => m a a) a

/-- sm2/p256_amd64.go:114, 162, 445-447, 505: copy(table[at:], table[from:]) on the entries of a table:
everything from entry `at` on is overwritten. -/
def copyTail {F : Type} (table : List F) (at_ from_ : Nat) : List F :=
  table.take at_ ++ (table.drop from_).take (table.length - at_)

/-- sm2/p256_amd64.go:160-163: round `i` of the preparation of the table (entry `i` is
`table[4*i:4*i+4]`).  p256_sm2OrdSqr2 first copies the whole tail of the table. -/
def ordTableStep {F : Type} (m : F → F → F) (d : F) (table : List F) (i : Nat) : List F :=
  let table := copyTail table (i - 1) (i / 2 - 1)
  let table := table.set (i - 1) (m (table.getD (i - 1) d) (table.getD (i - 1) d))
  table.set i (m (table.getD (i - 1) d) (table.getD 0 d))

/-- sm2/p256_amd64.go:208-211 (expLo). -/
def expLo : List Nat :=
  [0x7, 0x2, 0x0, 0x3, 0xd, 0xf, 0x6, 0xb, 0x2, 0x1, 0xc, 0x6, 0x0, 0x5, 0x2, 0xb,
   0x5, 0x3, 0xb, 0xb, 0xf, 0x4, 0x0, 0x9, 0x3, 0x9, 0xd, 0x5, 0x4, 0x1, 0x2, 0x1]

/-- sm2/p256_amd64.go:157-218 (Inverse): the power computed from `x` in the Montgomery domain, with
the multiplication `m`; `d` is the zero the table is filled with. -/
def ordChain {F : Type} (m : F → F → F) (d x : F) : List F × F :=
  let table := x :: List.replicate 14 d
  let table := [2, 4, 6, 8, 10, 12, 14].foldl (ordTableStep m d) table
  let x := table.getD 14 d
  let x := ordSqN m 4 x
  let s := m x (table.getD 13 d)
  let x := m x (table.getD 14 d)
  let t := x
  let x := ordSqN m 8 x
  let s := m x s
  let x := m x t
  let t := x
  let x := ordSqN m 16 x
  let s := m x s
  let t := m x t
  let x := ordSqN m 32 s
  let x := m x t
  let x := ordSqN m 32 x
  let x := m x t
  let x := ordSqN m 32 x
  let x := m x t
  (table, x)

/-- sm2/p256_amd64.go:212-218 (Inverse, the remaining 32 windows). -/
def ordWindows {F : Type} (m : F → F → F) (d : F) (table : List F) (x : F) : F :=
  expLo.foldl (fun x e =>
    let x := ordSqN m 4 x
    if e = 0 then x else m x (table.getD (e - 1) d)) x

/-- sm2/p256_amd64.go:149 (RR): 2^512 modulo n. -/
def ordRR : Nat := 0x1EB5E412A22B3D3B620FC84C3AFFE0D43464504ADE6FA2FA901192AF7C114F20

/-- sm2/p256_amd64.go:132-227 (Inverse). -/
def inverse (k : Int) : Nat :=
  let k := if k < 0 then -k else k
  let k := if (N : Int) ≤ k then k % N else k
  let c := ordChain mulN 0 (mulN k.toNat ordRR)
  mulN (ordWindows mulN 0 c.1 c.2) 1

end Verif.X64.P256
