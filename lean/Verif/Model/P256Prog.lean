/-
sm2/p256_amd64.go on memory: the functions of the file as the sequences of calls they make, with the
slices they pass.  Every function of the file that works on []uint64 is straight-line code once its
loops are unrolled, and the only data it looks at itself are the words of the scalar.

A pointer is the address of the first word of a slice.  All slices of the file start at a multiple of
four words within their array, so `off a i` is the slice that starts `4 * i` words later.  The pointer
type is a parameter: machine addresses here, numbers of groups of four words in the proofs.

Simplifications: the scalar and the coordinates of big.Int type are passed as numbers; the arrays are
given by their addresses, and only the array `table` of Inverse is zeroed when it is declared (no other
result depends on it); all calls of p256Inverse in one function use the same array `stack`;
p256_sm2BigToLittle is not called in the file.
-/
import Verif.Model.P256Mult
import Verif.Model.P256Select

namespace Verif.X64.P256

/-- sm2/p256_amd64.go:84-130: the calls. -/
inductive Call (α : Type) where
  /-- p256_sm2Sqr(res, in) -/
  | sqr (res a : α)
  /-- p256_sm2Mul(res, in1, in2) -/
  | mul (res a b : α)
  /-- p256_sm2OrdMul(res, in1, in2) -/
  | ordMul (res a b : α)
  /-- p256_sm2FromMont(res, in) -/
  | fromMont (res a : α)
  /-- p256_sm2NegCond(val, cond) -/
  | negCond (val : α) (cond : W)
  /-- p256_sm2MovCond(res, a, b, cond) -/
  | movCond (res a b : α) (cond : W)
  /-- p256_sm2Select(point, table, idx) -/
  | select (res table : α) (idx : W)
  /-- p256_sm2SelectBase(point, table, idx) -/
  | selectBase (res table : α) (idx : W)
  /-- p256_sm2PointAddAsm(res, in1, in2) -/
  | add (res a b : α)
  /-- p256_sm2PointDoubleAsm(res, in) -/
  | double (res a : α)
  /-- p256_sm2PointAddAffineAsm(res, in1, in2, sign, sel, zero) -/
  | addAffine (res a b : α) (sign sel zero : W)
  /-- p256_sm2LittleToBig(res, in) -/
  | toBig (res a : α)
  /-- copy(dst, src) of `4 * n` words, or assignments of four words. -/
  | copy (dst src : α) (n : Nat)
  /-- Assignments of the four words of a number. -/
  | store (dst : α) (v : Nat)

/-- Pointers. -/
class Ptr (α : Type) where
  /-- The slice from `4 * i` words on. -/
  off : α → Nat → α

export Ptr (off)

instance : Ptr W := ⟨fun a i => a + BitVec.ofNat 64 (32 * i)⟩

/-! ### Execution -/

/-- sm2/p256_amd64.go:84-130: the arguments of a call, by offset from the frame pointer. A slice takes 24
bytes, of which the routines read the first eight. -/
def Call.arg : Call W → Nat → W
  | .sqr r a | .fromMont r a | .double r a | .toBig r a => fun i => if i = 0 then r else a
  | .mul r a b | .ordMul r a b | .add r a b => fun i => if i = 0 then r else if i = 24 then a else b
  | .negCond v c => fun i => if i = 0 then v else c
  | .movCond r a b c => fun i => if i = 0 then r else if i = 24 then a else if i = 48 then b else c
  | .select r t i | .selectBase r t i => fun j => if j = 0 then r else if j = 24 then t else i
  | .addAffine r a b sign sel zero => fun i =>
    if i = 0 then r else if i = 24 then a else if i = 48 then b else if i = 72 then sign else
      if i = 80 then sel else zero
  | .copy _ _ _ | .store _ _ => fun _ => 0

/-- sm2/p256_amd64.go:114, 446, 478, 483, 503, 505: the built-in copy of `n` words: all are read before any is
written. -/
def copyWords (m : W → W) (dst src : W) (n : Nat) : W → W :=
  (List.range n).foldl (fun m' i =>
    upd m' (dst + BitVec.ofNat 64 (8 * i)) (m (src + BitVec.ofNat 64 (8 * i)))) m

/-- sm2/p256_amd64.go:84-130: the memory after a call, from a state with any registers, flags and frame `s`.
`none` if a loop does not end after as many rounds as the table has steps. -/
def Call.run (c : Call W) (s : St) (m : W → W) : Option (W → W) :=
  let s := { s with mem := m, arg := c.arg }
  match c with
  | .sqr _ _ => some (exec P256.sqr s).mem
  | .mul _ _ _ => some (exec P256.mul s).mem
  | .ordMul _ _ _ => some (exec P256.ordMul s).mem
  | .fromMont _ _ => some (exec P256.fromMont s).mem
  | .negCond _ _ => some (exec P256.negCond s).mem
  | .movCond _ _ _ _ => some (exec P256.movCond s).mem
  | .select _ _ _ => (P256.select 16 s).map St.mem
  | .selectBase _ _ _ => (P256.selectBase 32 s).map St.mem
  | .add _ _ _ => some (exec pointAddAsm s).mem
  | .double _ _ => some (exec pointDoubleAsm s).mem
  | .addAffine _ _ _ _ _ _ => some (exec pointAddAffineAsm s).mem
  | .toBig _ _ => some (exec bigToLittle s).mem
  | .copy d a n => some (copyWords m d a (4 * n))
  | .store d v => some (wr4 m d v)

/-- sm2/p256_amd64.go:84-130: the memory after a sequence of calls. `junk` gives the registers, flags and
frame at each call. -/
def runs (junk : Nat → St) : List (Call W) → (W → W) → Option (W → W)
  | [], m => some m
  | c :: cs, m => (c.run (junk 0) m).bind (runs (fun i => junk (i + 1)) cs)

section
variable {α : Type} [Ptr α]

/-! ### Functions -/

/-- sm2/p256_amd64.go:368-432: `for i := 0; i < n; i++ { p256_sm2Sqr(out, out) }` -/
def sqrs (n : Nat) (out : α) : List (Call α) := List.replicate n (.sqr out out)

/-- sm2/p256_amd64.go:345-443 (p256Inverse).  `stack` is the array of 24 words. -/
def invProg (out inp stack : α) : List (Call α) :=
  let p2 := off stack 0
  let p4 := off stack 1
  let p8 := off stack 2
  let p16 := off stack 3
  let p32 := off stack 4
  [.sqr out inp, .mul p2 out inp] ++
  [.sqr out p2, .sqr out out, .mul p4 out p2] ++
  [.sqr out p4, .sqr out out, .sqr out out, .sqr out out, .mul p8 out p4] ++
  [.sqr out p8] ++ sqrs 7 out ++ [.mul p16 out p8] ++
  [.sqr out p16] ++ sqrs 15 out ++ [.mul p32 out p16] ++
  [.sqr out p16] ++ sqrs 7 out ++ [.mul out out p8] ++
  sqrs 4 out ++ [.mul out out p4] ++
  [.sqr out out, .sqr out out, .mul out out p2] ++
  [.sqr out out, .mul out out inp, .sqr out out] ++
  sqrs 32 out ++ [.mul out out p32] ++
  sqrs 32 out ++ [.mul out out p32] ++
  sqrs 32 out ++ [.mul out out p32] ++
  sqrs 32 out ++ [.mul out out p32] ++
  sqrs 64 out ++ [.mul out out p32] ++
  sqrs 16 out ++ [.mul out out p16] ++
  sqrs 8 out ++ [.mul out out p8] ++
  sqrs 4 out ++ [.mul out out p4] ++
  [.sqr out out, .sqr out out, .mul out out p2] ++
  [.sqr out out, .sqr out out, .mul out out inp]

/-- sm2/p256_amd64.go:324-343 (p256PointToAffine).  The result is SetBytes of the 32 bytes at xOut and
yOut. -/
def toAffineProg (p zInv zInvSq stack xOut yOut : α) : List (Call α) :=
  invProg zInv (off p 2) stack ++
  [.sqr zInvSq zInv, .mul zInv zInv zInvSq, .mul zInvSq p zInvSq, .mul zInv (off p 1) zInv,
   .fromMont zInvSq zInvSq, .fromMont zInv zInv, .toBig xOut zInvSq, .toBig yOut zInv]

/-- sm2/p256_amd64.go:445-447 (p256StorePoint). -/
def storePoint (p precomp : α) (index : Nat) : Call α := .copy (off precomp (3 * index)) p 3

/-- sm2/p256_amd64.go:561-607 (p256ScalarMult, "Prepare the table"). -/
def precompProg (p precomp t0 t1 t2 t3 : α) : List (Call α) :=
  [storePoint p precomp 0,
   .double t0 p, .double t1 t0, .double t2 t1, .double t3 t2,
   storePoint t0 precomp 1, storePoint t1 precomp 3, storePoint t2 precomp 7, storePoint t3 precomp 15,
   .add t0 t0 p, .add t1 t1 p, .add t2 t2 p,
   storePoint t0 precomp 2, storePoint t1 precomp 4, storePoint t2 precomp 8,
   .double t0 t0, .double t1 t1,
   storePoint t0 precomp 5, storePoint t1 precomp 9,
   .add t2 t0 p, .add t1 t1 p,
   storePoint t2 precomp 6, storePoint t1 precomp 10,
   .double t0 t0, .double t2 t2,
   storePoint t0 precomp 11, storePoint t2 precomp 13,
   .add t0 t0 p, .add t2 t2 p,
   storePoint t0 precomp 12, storePoint t2 precomp 14]

/-- sm2/p256_amd64.go:617-637 and 640-653 (p256ScalarMult): the calls for one digit. -/
def digitProg (p precomp t0 t1 : α) (d : W × W) (zero : W) : List (Call α) :=
  [.double p p, .double p p, .double p p, .double p p, .double p p,
   .select t0 precomp d.1, .negCond (off t0 1) d.2, .add t1 p t0, .movCond t1 t1 p d.1,
   .movCond p t1 t0 zero]

/-- sm2/p256_amd64.go:615-653 (p256ScalarMult): the last `n` rounds of the loop, where `index` goes from
`5 * n - 1` down to 4, and the last digit. -/
def digitsProg (p precomp t0 t1 : α) (k : Nat) : Nat → W → List (Call α)
  | 0, zero => digitProg p precomp t0 t1 (boothW5 ((word k 0 <<< 1) &&& 0x3f)) zero
  | n + 1, zero =>
    let d := boothW5 (window k (5 * n + 4) 0x3f)
    digitProg p precomp t0 t1 d zero ++ digitsProg p precomp t0 t1 k n (zero ||| d.1)

/-- sm2/p256_amd64.go:561-654 (p256ScalarMult), with the scalar `k`. -/
def multProg (p precomp t0 t1 t2 t3 : α) (k : Nat) : List (Call α) :=
  let sel := (boothW5 ((word k 3 >>> 62) &&& 0x3f)).1
  precompProg p precomp t0 t1 t2 t3 ++ [.select p precomp sel] ++ digitsProg p precomp t0 t1 k 50 sel

/-- sm2/p256_amd64.go:484-506 (initTable): round `i` of the inner loop, in round `j` of the outer one.
`table` is p256Precomputed. -/
def initStep (base t1 zInv zInvSq stack table : α) (j i : Nat) : List (Call α) :=
  (if i = 0 then [] else List.replicate 7 (.double t1 t1)) ++
  invProg zInv (off t1 2) stack ++
  [.sqr zInvSq zInv, .mul zInv zInv zInvSq, .mul t1 t1 zInvSq, .mul (off t1 1) (off t1 1) zInv,
   .copy (off t1 2) (off base 2) 1, .copy (off table (128 * i + 2 * j)) t1 2]

/-- sm2/p256_amd64.go:482-511 (initTable): round `j` of the outer loop. -/
def initRow (base t1 t2 zInv zInvSq stack table : α) (j : Nat) : List (Call α) :=
  .copy t1 t2 3 ::
  ((List.range 37).flatMap (initStep base t1 zInv zInvSq stack table j) ++
  [if j = 0 then .double t2 base else .add t2 t2 base])

/-- sm2/p256_amd64.go:465-513 (initTable). -/
def initProg (base t1 t2 zInv zInvSq stack table : α) : List (Call α) :=
  [.store base basePoint.x, .store (off base 1) basePoint.y, .store (off base 2) basePoint.z,
   .copy t2 base 3] ++
  (List.range 64).flatMap (initRow base t1 t2 zInv zInvSq stack table)

/-- sm2/p256_amd64.go:546-558 (p256BaseMult): the rounds of the loop from `37 - n` on. -/
def baseRounds (p t0 table : α) (k : Nat) : Nat → W → List (Call α)
  | 0, _ => []
  | n + 1, zero =>
    let i := 36 - n
    let d := boothW7 (window k (7 * i - 1) 0xff)
    [.selectBase t0 (off table (128 * i)) d.1, .addAffine p p t0 d.2 d.1 zero] ++
    baseRounds p t0 table k n (zero ||| d.1)

/-- sm2/p256_amd64.go:515-559 (p256BaseMult) without the initialization of the table. -/
def baseProg (p t0 table : α) (k : Nat) : List (Call α) :=
  let d := boothW7 ((word k 0 <<< 1) &&& 0xff)
  [.selectBase p table d.1, .negCond (off p 1) d.2, .store (off p 2) oneM, .store (off t0 2) oneM] ++
  baseRounds p t0 table k 36 d.1

/-- sm2/p256_amd64.go:112-118 (p256_sm2OrdSqr2), where `len` groups of four words are copied. -/
def ordSqrProg (res a : α) (len n : Nat) : List (Call α) :=
  .copy res a len :: List.replicate n (.ordMul res res res)

/-- sm2/p256_amd64.go:132-225 (Inverse), for a reduced `k`. -/
def ordInvProg (k : Nat) (table x s t rr one xOut : α) : List (Call α) :=
  (List.range 15).map (fun i => .store (off table i) 0) ++
  [.store x k, .store rr ordRR, .ordMul table x rr] ++
  [2, 4, 6, 8, 10, 12, 14].flatMap (fun i =>
    ordSqrProg (off table (i - 1)) (off table (i / 2 - 1)) (15 - (i - 1)) 1 ++
    [.ordMul (off table i) (off table (i - 1)) table]) ++
  [.copy x (off table 14) 1] ++
  ordSqrProg x x 1 4 ++ [.ordMul s x (off table 13), .ordMul x x (off table 14), .copy t x 1] ++
  ordSqrProg x x 1 8 ++ [.ordMul s x s, .ordMul x x t, .copy t x 1] ++
  ordSqrProg x x 1 16 ++ [.ordMul s x s, .ordMul t x t] ++
  ordSqrProg x s 1 32 ++ [.ordMul x x t] ++
  ordSqrProg x x 1 32 ++ [.ordMul x x t] ++
  ordSqrProg x x 1 32 ++ [.ordMul x x t] ++
  expLo.flatMap (fun e =>
    ordSqrProg x x 1 4 ++ if e = 0 then [] else [.ordMul x x (off table (e - 1))]) ++
  [.store one 1, .ordMul x x one, .toBig xOut x]

/-- sm2/p256_amd64.go:306-318 (ScalarMult) and 272-286 (CombinedMult): a point with given coordinates;
`rrv` is the variable rr. -/
def pointProg (r rrv : α) (x y : Nat) : List (Call α) :=
  [.store r (reduceModP x), .store (off r 1) (reduceModP y), .mul r r rrv, .mul (off r 1) (off r 1) rrv,
   .store (off r 2) oneM]

/-! ### Methods

A method allocates its arrays.  They are given here by their addresses, with their sizes in groups of
four words. -/

/-- sm2/p256_amd64.go:324-346 (p256PointToAffine and p256Inverse): the arrays. -/
structure AffineArrays (α : Type) where
  (zInv zInvSq stack xOut yOut : α)

/-- sm2/p256_amd64.go:324-346: the arrays with their sizes. -/
def AffineArrays.list (f : AffineArrays α) : List (α × Nat) :=
  [(f.zInv, 1), (f.zInvSq, 1), (f.stack, 6), (f.xOut, 1), (f.yOut, 1)]

/-- sm2/p256_amd64.go:306, 564-565 (ScalarMult, p256ScalarMult): the arrays. -/
structure MultArrays (α : Type) where
  (r precomp t0 t1 t2 t3 : α)

/-- sm2/p256_amd64.go:301-322, 561-565: the arrays with their sizes. -/
def MultArrays.list (f : MultArrays α) : List (α × Nat) :=
  [(f.r, 3), (f.precomp, 48), (f.t0, 3), (f.t1, 3), (f.t2, 3), (f.t3, 3)]

/-- sm2/p256_amd64.go:296, 530 (ScalarBaseMult, p256BaseMult): the arrays. -/
structure BaseArrays (α : Type) where
  (r t0 : α)

/-- sm2/p256_amd64.go:292-299, 515-559: the arrays with their sizes. -/
def BaseArrays.list (f : BaseArrays α) : List (α × Nat) := [(f.r, 3), (f.t0, 3)]

/-- sm2/p256_amd64.go:467-481 (initTable): the arrays other than p256Precomputed. -/
structure InitArrays (α : Type) where
  (base t1 t2 zInv zInvSq stack : α)

/-- sm2/p256_amd64.go:465-513: the arrays with their sizes. -/
def InitArrays.list (f : InitArrays α) : List (α × Nat) :=
  [(f.base, 3), (f.t1, 3), (f.t2, 3), (f.zInv, 1), (f.zInvSq, 1), (f.stack, 6)]

/-- sm2/p256_amd64.go:145-208 (Inverse): the arrays. -/
structure InverseArrays (α : Type) where
  (table x s t rr one xOut : α)

/-- sm2/p256_amd64.go:132-227: the arrays with their sizes. -/
def InverseArrays.list (f : InverseArrays α) : List (α × Nat) :=
  [(f.table, 15), (f.x, 1), (f.s, 1), (f.t, 1), (f.rr, 1), (f.one, 1), (f.xOut, 1)]

/-- sm2/p256_amd64.go:324-346: p256PointToAffine. -/
def affineCalls (r : α) (f : AffineArrays α) : List (Call α) :=
  toAffineProg r f.zInv f.zInvSq f.stack f.xOut f.yOut

/-- sm2/p256_amd64.go:465-513: initTable. -/
def initCalls (f : InitArrays α) (table : α) : List (Call α) :=
  initProg f.base f.t1 f.t2 f.zInv f.zInvSq f.stack table

/-- sm2/p256_amd64.go:301-322, 561-565: a point with given coordinates, and p256ScalarMult on it. -/
def multCalls (f : MultArrays α) (rrv : α) (x y : Nat) (scalar : Bytes) : List (Call α) :=
  pointProg f.r rrv x y ++ multProg f.r f.precomp f.t0 f.t1 f.t2 f.t3 (getScalar scalar)

/-- sm2/p256_amd64.go:292-299, 515-559: p256BaseMult after `precomputeOnce.Do(initTable)`. -/
def baseCalls (f : BaseArrays α) (table : α) (scalar : Bytes) : List (Call α) :=
  baseProg f.r f.t0 table (getScalar scalar)

/-- sm2/p256_amd64.go:302-322 (ScalarMult); the result is SetBytes of xOut and yOut. -/
def scalarMultCalls (f : MultArrays α) (g : AffineArrays α) (rrv : α) (x y : Nat) (scalar : Bytes) :
    List (Call α) := multCalls f rrv x y scalar ++ affineCalls f.r g

/-- sm2/p256_amd64.go:293-300 (ScalarBaseMult) after `precomputeOnce.Do(initTable)`. -/
def scalarBaseMultCalls (f : BaseArrays α) (g : AffineArrays α) (table : α) (scalar : Bytes) :
    List (Call α) := baseCalls f table scalar ++ affineCalls f.r g

/-- sm2/p256_amd64.go:264-291 (CombinedMult) after `precomputeOnce.Do(initTable)`. -/
def combinedMultCalls (f : BaseArrays α) (h : MultArrays α) (g : AffineArrays α) (table rrv : α) (x y : Nat)
    (baseScalar scalar : Bytes) : List (Call α) :=
  baseCalls f table baseScalar ++ multCalls h rrv x y scalar ++ [.add f.r f.r h.r] ++ affineCalls f.r g

/-- sm2/p256_amd64.go:132-225 (Inverse), of |k|. -/
def inverseCalls (f : InverseArrays α) (k : Int) : List (Call α) :=
  ordInvProg (if k.natAbs ≥ N then k.natAbs % N else k.natAbs) f.table f.x f.s f.t f.rr f.one f.xOut

end

end Verif.X64.P256
