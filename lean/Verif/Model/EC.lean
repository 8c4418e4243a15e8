import Verif.Base.Curve
import Verif.Base.Slice
/-!
# Model of package ec (ec/key.go, ec/decompress.go)

Integers are `Int` where the Go code subtracts, reduced with the Euclidean `%` as `big.Int.Mod`.
`rand.Prime` is a stream of draws given as a list. A computation that has not finished when the
draws are used up has the outcome `none`.
-/
namespace Verif.EC

/-- ec/decompress.go:31-36 `getLowestSetBit`: the least `i` with bit `i` set (the Go loop does not end
for 0; here `fuel` bounds the search and `bitLen k` is always enough for `k ≠ 0`). -/
def lowestSetBitFrom (k : Nat) : Nat → Nat → Nat
  | 0, i => i
  | fuel + 1, i => if k.testBit i then i else lowestSetBitFrom k fuel (i + 1)

/-- ec/decompress.go:31-36 -/
def getLowestSetBit (k : Nat) : Nat := lowestSetBitFrom k (bitLen k) 0

/-- ec/decompress.go:38-44 `isEven`. -/
def isEven (k : Nat) : Bool := !k.testBit 0

/-- The variables of `fastLucasSequence` (ec/decompress.go:51-56). -/
structure Lucas where
  (uh vl ql qh vh : Int)
  deriving DecidableEq, Repr

/-- ec/decompress.go:59-94: one iteration of the main loop for bit value `b`. -/
def lucasStep (p P Q : Int) (s : Lucas) (b : Bool) : Lucas :=
  let ql := (s.ql * s.qh) % p
  if b then
    let qh := (ql * Q) % p
    let uh := (s.uh * s.vh) % p
    let vl := (s.vh * s.vl - P * ql) % p
    let vh := (s.vh * s.vh - qh * 2) % p
    { uh := uh, vl := vl, ql := ql, qh := qh, vh := vh }
  else
    let qh := ql
    let uh := (s.uh * s.vl - ql) % p
    let vh := (s.vh * s.vl - P * ql) % p
    let vl := (s.vl * s.vl - ql * 2) % p
    { uh := uh, vl := vl, ql := ql, qh := qh, vh := vh }

/-- ec/decompress.go:58: `for j := n-1; j >= s+1; j--`, as `n - (s+1)` iterations: with `cnt` left the
current bit is `j = s + cnt`. -/
def lucasLoop (p P Q : Int) (k s : Nat) : Nat → Lucas → Lucas
  | 0, st => st
  | cnt + 1, st => lucasLoop p P Q k s cnt (lucasStep p P Q st (k.testBit (s + (cnt + 1))))

/-- ec/decompress.go:115-126: the trailing doublings. Line 117 multiplies by `curveP` (sic). -/
def lucasTail (p : Int) : Nat → Lucas → Lucas
  | 0, st => st
  | n + 1, st => lucasTail p n
      { st with uh := st.uh * st.vl * p
                vl := (st.vl * st.vl - st.ql * 2) % p
                ql := (st.ql * st.ql) % p }

/-- ec/decompress.go:47-129 `fastLucasSequence`. -/
def fastLucasSequence (p P Q : Int) (k : Nat) : Int × Int :=
  let n := bitLen k
  let s := getLowestSetBit k
  let st : Lucas := { uh := 1, vl := 2, ql := 1, qh := 1, vh := P }
  let st := lucasLoop p P Q k s (n - (s + 1)) st
  -- lines 97-113
  let ql := (st.ql * st.qh) % p
  let qh := (ql * Q) % p
  let uh := (st.uh * st.vl - ql) % p
  let vl := (st.vh * st.vl - P * ql) % p
  let ql := (ql * qh) % p
  let st := lucasTail p s { uh := uh, vl := vl, ql := ql, qh := qh, vh := st.vh }
  (st.uh, st.vl)

/-- `big.Int.Exp(x, e, m)` with a positive modulus and non-negative exponent: the Euclidean residue of
`x^e` (math/big makes the result non-negative also for negative `x`). By repeated squaring so that it
can be evaluated; `expMod_eq` in the lemmas states what it computes. -/
def expModAux (m : Int) : Nat → Int → Nat → Int → Int
  | 0, _, _, acc => acc
  | fuel + 1, x, e, acc =>
    if e = 0 then acc
    else expModAux m fuel ((x * x) % m) (e / 2) (if e % 2 = 1 then (acc * x) % m else acc)

/-- ec/decompress.go:139, 142, 157, 185: `Exp` of math/big -/
def expMod (x : Int) (e : Nat) (m : Int) : Int := expModAux m (bitLen e) (x % m) e (1 % m)

/-- ec/decompress.go:132-148: the branch `curve.P.Bit(1) == 1`. -/
def sqrt3mod4 (ySquare : Int) (P : Nat) : Option Int :=
  let tmp2 := expMod ySquare (P / 4 + 1) P
  let tmp3 := expMod tmp2 2 P
  if tmp3 = ySquare then some tmp2 else none

/-- ec/decompress.go:182-190: is the drawn `lucasParamP` accepted? -/
def drawOk (P : Nat) (fourQ : Int) (lp : Nat) : Bool :=
  decide (lp < P) && decide (expMod ((lp : Int) * lp - fourQ) ((P - 1) / 2) P = (P : Int) - 1)

/-- ec/decompress.go:176-208: the outer loop. The inner loop (178-191) skips draws that are not
accepted. `none`: the draws ran out; `some none`: `break` (line 206), i.e. nil is returned. -/
def lucasSearch (P : Nat) (Q fourQ : Int) (k : Nat) : List Nat → Option (Option Int)
  | [] => none
  | lp :: rest =>
    if drawOk P fourQ lp then
      let (seqU, seqV) := fastLucasSequence P lp Q k
      if (seqV * seqV) % P = fourQ then
        let seqV := if seqV % 2 = 1 then seqV + P else seqV
        some (some (seqV / 2))
      else if seqU = 1 ∨ seqU = (P : Int) - 1 then some none
      else lucasSearch P Q fourQ k rest
    else lucasSearch P Q fourQ k rest

/-- ec/decompress.go:132-210 `curveSqrt`. Outer `none`: not finished with the given draws; inner `none`:
nil is returned. -/
def curveSqrt (ySquare : Int) (P : Nat) (draws : List Nat) : Option (Option Int) :=
  if P.testBit 1 then some (sqrt3mod4 ySquare P)
  else if expMod ySquare ((P - 1) / 2) P ≠ 1 then some none
  else
    let k := (P - 1) / 4 * 2 + 1
    lucasSearch P ySquare ((ySquare * 4) % P) k draws

/-- ec/decompress.go:214-232: the right-hand side of the curve equation. `k1name` is
`btcec.S256().Name`. -/
def ySquareOf (k1name : String) (c : Curve) (x : Nat) : Int :=
  let y := expMod x 2 c.P
  let y := if c.name ≠ k1name then (y + (-3)) % c.P else y
  let y := (y * x) % c.P
  (y + c.B) % c.P

/-- ec/decompress.go:213-250 `deCompress`. -/
def deCompress (k1name : String) (yTilde : Nat) (xValue : Bytes) (c : Curve) (draws : List Nat) :
    Option (Res ECPub) :=
  let xCoord := natOfBytes xValue
  (curveSqrt (ySquareOf k1name c xCoord) c.P draws).map fun
    | none => .err "Invalid point compression"
    | some yValue =>
      let yValue := yValue.toNat
      let flip := (isEven yValue && yTilde ≠ 0) || (!isEven yValue && yTilde ≠ 1)
      .ok { curve := c, x := xCoord, y := if flip then c.P - yValue else yValue }

/-- ec/key.go:88-110 `EncodePublicKey`. A coordinate that is too long makes the start index of the slice
expression negative, which panics. -/
def encodePublicKey (key : Option ECPub) (compressed : Bool) : Res Bytes :=
  match key with
  | none => .panic "invalid argument: public key is nil"
  | some key =>
    let length := key.curve.byteSize
    let buf := zeros (length * 2 + 1)
    let x := bytesOfNat key.x
    if x.length > length + 1 then .panic "slice bounds out of range"
    else
      let buf := splice buf (length + 1 - x.length) x
      if compressed then
        let buf := splice buf 0 [if key.y.testBit 0 then 3 else 2]
        .ok (buf.take (length + 1))
      else
        let buf := splice buf 0 [4]
        let y := bytesOfNat key.y
        if y.length > length * 2 + 1 then .panic "slice bounds out of range"
        else .ok (splice buf (length * 2 + 1 - y.length) y)

/-- ec/key.go:112-144 `DecodePublicKey`. -/
def decodePublicKey (k1name : String) (data : Bytes) (curve : Option Curve) (draws : List Nat) :
    Option (Res ECPub) :=
  match curve with
  | none => some (.err "unknown curve")
  | some curve =>
    let length := curve.byteSize
    if data.length < length + 1 then some (.err "invalid data length")
    else
      let x := natOfBytes ((data.drop 1).take length)
      let tag := data.getD 0 0
      if tag = 4 then
        if data.length < length * 2 + 1 then some (.err "invalid data length")
        else
          let y := natOfBytes ((data.drop (length + 1)).take length)
          some (.ok { curve := curve, x := x, y := y })
      else if tag = 2 ∨ tag = 3 then
        deCompress k1name (tag &&& 1).toNat ((data.drop 1).take length) curve draws
      else some (.err "unknown encoding mode")

end Verif.EC
