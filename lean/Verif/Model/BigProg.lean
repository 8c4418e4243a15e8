import Verif.Model.Big
import Verif.Model.SM2
import Verif.Model.VRF
/-!
# The functions that compute with numbers, as programs on objects
-/
namespace Verif.Big

/-! ## Package ec -/

/-- The variables of `fastLucasSequence` (ec/decompress.go:51-56). -/
structure Locals where
  (uh vl ql qh vh tmp : Ref)

/-- ec/decompress.go:59-94: one iteration of the main loop for bit value `b`. -/
def lucasStep (p P Q : Ref) (l : Locals) (b : Bool) : Prog Unit := do
  mul l.ql l.ql l.qh
  mod l.ql l.ql p
  if b then do
    mul l.qh l.ql Q
    mod l.qh l.qh p
    mul l.uh l.uh l.vh
    mod l.uh l.uh p
    mul l.vl l.vh l.vl
    mul l.tmp P l.ql
    sub l.vl l.vl l.tmp
    mod l.vl l.vl p
    mul l.vh l.vh l.vh
    lsh l.tmp l.qh 1
    sub l.vh l.vh l.tmp
    mod l.vh l.vh p
  else do
    set l.qh l.ql
    mul l.uh l.uh l.vl
    sub l.uh l.uh l.ql
    mod l.uh l.uh p
    mul l.vh l.vh l.vl
    mul l.tmp P l.ql
    sub l.vh l.vh l.tmp
    mod l.vh l.vh p
    mul l.vl l.vl l.vl
    lsh l.tmp l.ql 1
    sub l.vl l.vl l.tmp
    mod l.vl l.vl p

/-- ec/decompress.go:58-95: the main loop, `j = s + cnt` with `cnt` iterations left; `k` is read anew in each. -/
def lucasLoop (p P Q k : Ref) (l : Locals) (s : Nat) : Nat → Prog Unit
  | 0 => .ret ()
  | cnt + 1 => do
    let kv ← read k
    lucasStep p P Q l (kv.toNat.testBit (s + (cnt + 1)))
    lucasLoop p P Q k l s cnt

/-- ec/decompress.go:115-126: the trailing doublings. -/
def lucasTail (p : Ref) (l : Locals) : Nat → Prog Unit
  | 0 => .ret ()
  | n + 1 => do
    mul l.uh l.uh l.vl
    mul l.uh l.uh p
    mul l.vl l.vl l.vl
    lsh l.tmp l.ql 1
    sub l.vl l.vl l.tmp
    mod l.vl l.vl p
    mul l.ql l.ql l.ql
    mod l.ql l.ql p
    lucasTail p l n

/-- ec/decompress.go:97-113: between the loops. -/
def lucasMid (p P Q : Ref) (l : Locals) : Prog Unit := do
  mul l.ql l.ql l.qh
  mod l.ql l.ql p
  mul l.qh l.ql Q
  mod l.qh l.qh p
  mul l.uh l.uh l.vl
  sub l.uh l.uh l.ql
  mod l.uh l.uh p
  mul l.vl l.vh l.vl
  mul l.tmp P l.ql
  sub l.vl l.vl l.tmp
  mod l.vl l.vl p
  mul l.ql l.ql l.qh
  mod l.ql l.ql p

/-- ec/decompress.go:47-129 `fastLucasSequence`. The length and the lowest bit of `k` (lines 48, 49) are taken from one
read. -/
def fastLucasSequence (p P Q k : Ref) : Prog (Ref × Ref) := do
  let kv ← read k
  let n := bitLen kv.toNat
  let s := EC.getLowestSetBit kv.toNat
  let uh ← newInt 1
  let vl ← newInt 2
  let ql ← newInt 1
  let qh ← newInt 1
  let vh ← newInt 0
  set vh P
  let tmp ← newInt 0
  let l : Locals := ⟨uh, vl, ql, qh, vh, tmp⟩
  lucasLoop p P Q k l s (n - (s + 1))
  lucasMid p P Q l
  lucasTail p l s
  return (uh, vl)

/-- `d.Exp(a, e, m)` (ec/decompress.go:139) -/
def exp (d a e m : Ref) : Prog Unit := do
  let x ← read a
  let y ← read e
  let z ← read m
  write d (EC.expMod x y.toNat z)

/-- ec/decompress.go:134-147: the branch `curve.P.Bit(1) == 1`. -/
def sqrt3mod4 (ySquare P : Ref) : Prog (Option Ref) := do
  let tmp1 ← newInt 0
  rsh tmp1 P 2
  let one ← newInt 1
  add tmp1 tmp1 one
  let tmp2 ← newInt 0
  exp tmp2 ySquare tmp1 P
  let tmp3 ← newInt 0
  let two ← newInt 2
  exp tmp3 tmp2 two P
  let a ← read tmp3
  let b ← read ySquare
  return if a = b then some tmp2 else none

/-- ec/decompress.go:179-190: a number `lp` drawn by `rand.Prime`; the result is the number if it is accepted. -/
def tryDraw (P fourQ legendExponent qMinusOne : Ref) (lp : Nat) : Prog (Option Ref) := do
  let tmp5 ← newInt 0
  let lucasParamP ← newInt lp
  let a ← read lucasParamP
  let b ← read P
  if a < b then do
    mul tmp5 lucasParamP lucasParamP
    sub tmp5 tmp5 fourQ
    exp tmp5 tmp5 legendExponent P
    let a ← read tmp5
    let b ← read qMinusOne
    return if a = b then some lucasParamP else none
  else return none

/-- ec/decompress.go:193-207: what is done with an accepted number. `none`: the outer loop goes on. -/
def tryRoot (P lucasParamP lucasParamQ fourQ qMinusOne k : Ref) : Prog (Option (Option Ref)) := do
  let (seqU, seqV) ← fastLucasSequence P lucasParamP lucasParamQ k
  let tmp6 ← newInt 0
  mul tmp6 seqV seqV
  mod tmp6 tmp6 P
  let a ← read tmp6
  let b ← read fourQ
  if a = b then do
    let v ← read seqV
    if v % 2 = 1 then add seqV seqV P
    rsh seqV seqV 1
    return some (some seqV)
  else do
    let one ← newInt 1
    let u ← read seqU
    let a ← read one
    let b ← read qMinusOne
    return if u = a ∨ u = b then some none else none

/-- ec/decompress.go:176-208: the loops. `none`: the draws ran out; `some none`: nil. The object allocated in line 177
is never used. -/
def lucasSearch (P lucasParamQ fourQ legendExponent qMinusOne k : Ref) : List Nat → Prog (Option (Option Ref))
  | [] => return none
  | lp :: rest => do
    match ← tryDraw P fourQ legendExponent qMinusOne lp with
    | none => lucasSearch P lucasParamQ fourQ legendExponent qMinusOne k rest
    | some lucasParamP =>
      match ← tryRoot P lucasParamP lucasParamQ fourQ qMinusOne k with
      | some r => return some r
      | none => lucasSearch P lucasParamQ fourQ legendExponent qMinusOne k rest

/-- ec/decompress.go:150-210: the other branch. -/
def sqrtLucas (ySquare P : Ref) (draws : List Nat) : Prog (Option (Option Ref)) := do
  let qMinusOne ← newInt 0
  let one ← newInt 1
  sub qMinusOne P one
  let legendExponent ← newInt 0
  rsh legendExponent qMinusOne 1
  let tmp4 ← newInt 0
  exp tmp4 ySquare legendExponent P
  let one' ← newInt 1
  let a ← read tmp4
  let b ← read one'
  if a ≠ b then return some none
  else do
    let k ← newInt 0
    rsh k qMinusOne 2
    lsh k k 1
    let one'' ← newInt 1
    add k k one''
    let lucasParamQ ← newInt 0
    set lucasParamQ ySquare
    let fourQ ← newInt 0
    lsh fourQ lucasParamQ 2
    mod fourQ fourQ P
    lucasSearch P lucasParamQ fourQ legendExponent qMinusOne k draws

/-- ec/decompress.go:132-210 `curveSqrt`; outer `none`: not finished with the given draws; inner `none`: nil. -/
def curveSqrt (ySquare P : Ref) (draws : List Nat) : Prog (Option (Option Ref)) := do
  let p ← read P
  if p.toNat.testBit 1 then do
    let r ← sqrt3mod4 ySquare P
    return some r
  else sqrtLucas ySquare P draws

/-- A curve object (`elliptic.CurveParams`, sm2/curves.go:38-45): the numbers are objects; name, size and dynamic type
are those of `c`. -/
structure CurveObj where
  c : Curve
  (P N B Gx Gy : Ref)

/-- An `*ecdsa.PublicKey` (ec/key.go:48-51). -/
structure PubObj where
  curve : CurveObj
  (X Y : Ref)

/-- An `*ecdsa.PrivateKey` (ec/key.go:43-46). -/
structure PrivObj where
  D : Ref
  pub : PubObj

/-- ec/decompress.go:214-232: the coordinate and the right-hand side of the curve equation. -/
def ySquareOf (k1name : String) (o : CurveObj) (xValue : Bytes) : Prog (Ref × Ref) := do
  let xCoord ← newInt 0
  write xCoord (natOfBytes xValue)
  let ySqare ← newInt 0
  let two ← newInt 2
  exp ySqare xCoord two o.P
  if o.c.name ≠ k1name then do
    let paramA ← newInt (-3)
    add ySqare ySqare paramA
    mod ySqare ySqare o.P
  mul ySqare ySqare xCoord
  mod ySqare ySqare o.P
  add ySqare ySqare o.B
  mod ySqare ySqare o.P
  return (xCoord, ySqare)

/-- ec/decompress.go:239-244: the choice between the root and its negative. -/
def chooseY (o : CurveObj) (yTilde : Nat) (yValue : Ref) : Prog Ref := do
  let yCoord ← newInt 0
  let y ← read yValue
  if (EC.isEven y.toNat && yTilde ≠ 0) || (!EC.isEven y.toNat && yTilde ≠ 1) then sub yCoord o.P yValue
  else set yCoord yValue
  return yCoord

/-- ec/decompress.go:213-250 `deCompress`. -/
def deCompress (k1name : String) (yTilde : Nat) (xValue : Bytes) (o : CurveObj) (draws : List Nat) :
    Prog (Option (Res PubObj)) := do
  let (xCoord, ySqare) ← ySquareOf k1name o xValue
  match ← curveSqrt ySqare o.P draws with
  | none => return none
  | some none => return some (.err "Invalid point compression")
  | some (some yValue) => do
    let yCoord ← chooseY o yTilde yValue
    return some (.ok ⟨o, xCoord, yCoord⟩)

/-- ec/key.go:112-144 `DecodePublicKey`. -/
def decodePublicKey (k1name : String) (data : Bytes) (curve : Option CurveObj) (draws : List Nat) :
    Prog (Option (Res PubObj)) :=
  match curve with
  | none => return some (.err "unknown curve")
  | some o =>
    let length := o.c.byteSize
    if data.length < length + 1 then return some (.err "invalid data length")
    else do
      let x ← newInt (natOfBytes ((data.drop 1).take length))
      let tag := data.getD 0 0
      if tag = 4 then
        if data.length < length * 2 + 1 then return some (.err "invalid data length")
        else do
          let y ← newInt (natOfBytes ((data.drop (length + 1)).take length))
          return some (.ok ⟨o, x, y⟩)
      else if tag = 2 ∨ tag = 3 then
        deCompress k1name (tag &&& 1).toNat ((data.drop 1).take length) o draws
      else return some (.err "unknown encoding mode")

/-! ## Package sm2 -/

/-- sm2/signature.go:64-80 `randFieldElement` applied to the bytes `b` it read; `one` is the variable of line 47. -/
def randFieldElement (o : CurveObj) (one : Ref) (b : Bytes) : Prog Ref := do
  let k ← newInt (natOfBytes b)
  let n ← newInt 0
  sub n o.N one
  sub n n one
  mod k k n
  add k k one
  return k

/-- sm2/signature.go:84-88 `fermatInverse`. -/
def fermatInverse (k P : Ref) : Prog Ref := do
  let two ← newInt 2
  let pMinus2 ← newInt 0
  sub pMinus2 P two
  let r ← newInt 0
  exp r k pMinus2 P
  return r

/-- Two numbers returned by a curve method, which are new objects (sm2/p256_amd64.go:342; on other platforms
`affineFromJacobian` of the standard library allocates them). -/
def newPair (q : Nat × Nat) : Prog (Ref × Ref) := do
  let x ← newInt q.1
  let y ← newInt q.2
  return (x, y)

/-- sm2/signature.go:190-195: `Inverse` if the curve has it (it returns a new object, sm2/p256_amd64.go:226), else
Fermat. -/
def invOf (E : SM2.Ext) (o : CurveObj) (d1 : Ref) : Prog Ref := do
  match E.inverse with
  | some f => do
    let x ← read d1
    newInt (f x.toNat)
  | none => fermatInverse d1 o.N

/-- sm2/signature.go:92-122 `getZ`. -/
def getZ (H : Bytes → Bytes) (msg : Bytes) (pub : PubObj) (userID : Bytes) : Prog (Res Bytes) :=
  if pub.curve.c ≠ Curves.sm2 then return .err "the curve type is not SM2Curve"
  else do
    let id := if userID.length = 0 then SM2.defaultID else userID
    let len := id.length * 8
    let blen : Bytes := [BitVec.ofNat 8 (len >>> 8), BitVec.ofNat 8 len]
    let b ← read pub.curve.B
    let gx ← read pub.curve.Gx
    let gy ← read pub.curve.Gy
    let x ← read pub.X
    let y ← read pub.Y
    let h := H (blen ++ id ++ SM2Curve.aBytes ++ bytesOfNat b.toNat ++ bytesOfNat gx.toNat
      ++ bytesOfNat gy.toNat ++ bytesOfNat x.toNat ++ bytesOfNat y.toNat)
    return .ok (h ++ msg)

/-- sm2/signature.go:172-200: one pass through the nested loops; `none`: a new nonce is drawn. -/
def signTry (E : SM2.Ext) (o : CurveObj) (one e : Ref) (priKey : Bytes) (b : Bytes) : Prog (Option (Ref × Ref)) := do
  let k ← randFieldElement o one b
  let kv ← read k
  let (r, _) ← newPair (E.ops.baseMult kv.toNat)
  add r r e
  mod r r o.N
  let rv ← read r
  let sum ← newInt 0
  add sum r k
  let sv ← read sum
  let nv ← read o.N
  if rv ≠ 0 ∧ sv ≠ nv then do
    let D ← newInt (natOfBytes priKey)
    let rD ← newInt 0
    mul rD D r
    let s ← newInt 0
    sub s k rD
    let d1 ← newInt 0
    add d1 D one
    let d1Inv ← invOf E o d1
    mul s s d1Inv
    mod s s o.N
    let sv ← read s
    return if sv ≠ 0 then some (r, s) else none
  else return none

/-- sm2/signature.go:170-201: the loops over successive reads of the nonce stream. -/
def signLoop (E : SM2.Ext) (o : CurveObj) (one e : Ref) (priKey : Bytes) : List Bytes → Prog (Option (Ref × Ref))
  | [] => return none
  | b :: bs => do
    match ← signTry E o one e priKey b with
    | some rs => return some rs
    | none => signLoop E o one e priKey bs

/-- sm2/signature.go:126-204 `Sign`. -/
def sign (E : SM2.Ext) (H : Bytes → Bytes) (one : Ref) (fuel : Nat) (rand : Bytes) (priv : PrivObj) (id msg : Bytes) :
    Prog (Option (Res (Ref × Ref))) := do
  match ← getZ H msg priv.pub id with
  | .err m => return some (.err m)
  | .panic m => return some (.panic m)
  | .ok mz => do
    let digest := H mz
    let n := SM2.entropyLen priv.pub.curve.c
    if rand.length < n then return some (.err "read error")
    else do
      let d ← read priv.D
      let priKey := bytesOfNat d.toNat
      let key := (E.sha512 (priKey ++ rand.take n ++ digest)).take 32
      let e ← newInt (natOfBytes digest)
      let r ← signLoop E priv.pub.curve one e priKey (SM2.nonceReads E priv.pub.curve.c key fuel)
      return r.map Res.ok

/-- sm2/signature.go:222-229: `s G + t P`. -/
def combine (E : SM2.Ext) (pub : PubObj) (s t : Ref) : Prog (Ref × Ref) := do
  match E.combinedMult with
  | some f => do
    let x ← read pub.X
    let y ← read pub.Y
    let sv ← read s
    let tv ← read t
    newPair (f (x.toNat, y.toNat) sv.toNat tv.toNat)
  | none => do
    let sv ← read s
    let (x1, y1) ← newPair (E.ops.baseMult sv.toNat)
    let x ← read pub.X
    let y ← read pub.Y
    let tv ← read t
    let (x2, y2) ← newPair (E.ops.mult (x.toNat, y.toNat) tv.toNat)
    let a ← read x1
    let b ← read y1
    let c ← read x2
    let d ← read y2
    newPair (E.ops.add (a.toNat, b.toNat) (c.toNat, d.toNat))

/-- sm2/signature.go:216-246: `Verify` after the range checks. -/
def verifyTail (E : SM2.Ext) (H : Bytes → Bytes) (pub : PubObj) (id msg : Bytes) (r s : Ref) : Prog Bool := do
  let t ← newInt 0
  add t r s
  mod t t pub.curve.N
  let tv ← read t
  if tv ≤ 0 then return false
  else do
    let (x, y) ← combine E pub s t
    let xv ← read x
    let yv ← read y
    if xv = 0 ∧ yv = 0 then return false
    else do
      match ← getZ H msg pub id with
      | .ok mz => do
        let e ← newInt (natOfBytes (H mz))
        add x x e
        mod x x pub.curve.N
        let xv ← read x
        let rv ← read r
        return xv == rv
      | _ => return false

/-- sm2/signature.go:207-247 `Verify`. -/
def verify (E : SM2.Ext) (H : Bytes → Bytes) (pub : PubObj) (id msg : Bytes) (r s : Ref) : Prog Bool := do
  let N ← read pub.curve.N
  if N = 0 then return false
  else do
    let rv ← read r
    let sv ← read s
    if rv ≤ 0 ∨ rv ≥ N ∨ sv ≤ 0 ∨ sv ≥ N then return false
    else verifyTail E H pub id msg r s

/-- sm2/encryption.go:130-168: the loop over nonces and the final assembly. -/
def encryptLoop (E : SM2.Ext) (pub : PubObj) (one : Ref) (data : Bytes) : List Bytes → Bytes → Prog (Option (Res Bytes))
  | [], _ => return none
  | b :: bs, buf => do
    let k ← randFieldElement pub.curve one b
    let kv ← read k
    let (x1, y1) ← newPair (E.ops.baseMult kv.toNat)
    let x1 ← read x1
    let y1 ← read y1
    match (SM2.putRight buf 32 x1.toNat).bind fun buf => SM2.putRight buf 64 y1.toNat with
    | .err m => return some (.err m)
    | .panic m => return some (.panic m)
    | .ok buf => do
      let px ← read pub.X
      let py ← read pub.Y
      if px = 0 ∧ py = 0 then return some (.err "invalid public key")
      else do
        let px ← read pub.X
        let py ← read pub.Y
        let kv ← read k
        let (x2, y2) ← newPair (E.ops.mult (px.toNat, py.toNat) kv.toNat)
        let x2v ← read x2
        let y2v ← read y2
        match SM2.pointBuf x2v.toNat y2v.toNat with
        | .err m => return some (.err m)
        | .panic m => return some (.panic m)
        | .ok x2y2 =>
          match SM2.sm3kdf x2y2 data.length with
          | none => encryptLoop E pub one data bs buf
          | some t => do
            let x2v ← read x2
            let y2v ← read y2
            let c2 := List.zipWith (· ^^^ ·) data t
            return some ((SM2.macOf x2v.toNat y2v.toNat data).bind fun c3 =>
              .ok (SM3.goCopyAt (SM3.goCopyAt buf 64 c3).1 96 c2).1)

/-- sm2/encryption.go:85-169 `Encrypt`. -/
def encrypt (E : SM2.Ext) (one : Ref) (fuel : Nat) (rand : Bytes) (pub : PubObj) (data : Bytes) :
    Prog (Option (Res Bytes)) :=
  if pub.curve.c ≠ Curves.sm2 then return some (.err "the curve type is not SM2Curve")
  else if rand.length < SM2.entropyLen pub.curve.c then return some (.err "read error")
  else do
    let x ← read pub.X
    let key := (E.sha512 (bytesOfNat x.toNat ++ rand.take (SM2.entropyLen pub.curve.c) ++ SM2.sm3Sum data)).take 32
    encryptLoop E pub one data (SM2.nonceReads E pub.curve.c key fuel) (zeros (96 + data.length))

/-- sm2/encryption.go:188-214: `Decrypt` once the point `C1` has been checked. -/
def decryptTail (E : SM2.Ext) (priv : PrivObj) (x1 y1 : Ref) (data : Bytes) : Prog (Res SM2.DecOut) := do
  let x ← read x1
  let y ← read y1
  let d ← read priv.D
  let (x2, y2) ← newPair (E.ops.mult (x.toNat, y.toNat) d.toNat)
  let x2v ← read x2
  let y2v ← read y2
  match SM2.pointBuf x2v.toNat y2v.toNat with
  | .err m => return .err m
  | .panic m => return .panic m
  | .ok c2 =>
    match SM2.sm3kdf c2 (data.length - 96) with
    | none => return .ok (none, some "KDF calc error")
    | some t => do
      let msg := List.zipWith (· ^^^ ·) (data.drop 96) t
      let x2v ← read x2
      let y2v ← read y2
      return (SM2.macOf x2v.toNat y2v.toNat msg).bind fun c3 =>
        if c3 ≠ (data.drop 64).take 32 then .ok (some msg, some "Hash not match!") else .ok (some msg, none)

/-- sm2/encryption.go:171-215 `Decrypt`. -/
def decrypt (E : SM2.Ext) (priv : PrivObj) (data spare : Bytes) : Prog (Res SM2.DecOut) :=
  if priv.pub.curve.c ≠ Curves.sm2 then return .ok (none, some "the curve type is not SM2Curve")
  else if (data ++ spare).length < 64 then return .panic "slice bounds out of range"
  else do
    let x1 ← newInt (natOfBytes ((data ++ spare).take 32))
    let y1 ← newInt (natOfBytes (((data ++ spare).drop 32).take 32))
    let x ← read x1
    let y ← read y1
    if x = 0 ∧ y = 0 then return .ok (none, some "C1 is infinity")
    else if E.isOnCurve x.toNat y.toNat = false then return .ok (none, some "C1 is not on curve")
    else decryptTail E priv x1 y1 data

/-! ## Package vrf -/

/-- vrf/vrf_ec.go:85-95: the loop of `hashToInt`; `one` is the variable of line 78. -/
def hashToIntFrom (E : VRF.Ext) (a : Signature.HashAlg) (o : CurveObj) (one : Ref) (m : Bytes) :
    Nat → Nat → Prog (Option Ref)
  | 0, _ => return none
  | fuel + 1, i => do
    let k ← newInt (natOfBytes ((E.hash a (beFix 4 i ++ m)).take o.c.byteSize))
    let n1 ← newInt 0
    sub n1 o.N one
    let x ← read k
    let y ← read n1
    if x < y then do
      add k k one
      return some k
    else hashToIntFrom E a o one m fuel (i + 1)

/-- `elliptic.Marshal(curve, x, y)` (vrf/vrf_ec.go:118) -/
def marshal (o : CurveObj) (q : Ref × Ref) : Prog (Res Bytes) := do
  let x ← read q.1
  let y ← read q.2
  return VRF.marshal o.c (x.toNat, y.toNat)

/-- A sequence of `b.Write(elliptic.Marshal(..))` (vrf/vrf_ec.go:129-131). The numbers behind a pair that does not fit
are read as well, although the code has panicked then. -/
def marshalAll (o : CurveObj) : List (Ref × Ref) → Prog (Res Bytes)
  | [] => return .ok []
  | q :: qs => do
    let b ← marshal o q
    let bs ← marshalAll o qs
    return b.bind fun b => bs.map fun bs => b ++ bs

/-- vrf/vrf_ec.go:60-74: the loop of `hashToCurve`; inner `none` is nil. -/
def hashToCurveFrom (E : VRF.Ext) (a : Signature.HashAlg) (o : CurveObj) (m : Bytes) (draws : Nat → List Nat) :
    Nat → Nat → Prog (Option (Option (Ref × Ref)))
  | 0, _ => return some none
  | n + 1, i => do
    match ← decodePublicKey E.k1name ((2 :: E.hash a (beFix 4 i ++ m)).take (o.c.byteSize + 1)) (some o) (draws i) with
    | none => return none
    | some (.ok p) => return some (some (p.X, p.Y))
    | some _ => hashToCurveFrom E a o m draws n (i + 1)

/-- `curve.ScalarMult(x, y, k)` (vrf/vrf_ec.go:123), which returns new numbers. -/
def mult (E : VRF.Ext) (o : CurveObj) (q : Ref × Ref) (k : Nat) : Prog (Ref × Ref) := do
  let x ← read q.1
  let y ← read q.2
  newPair ((E.ops o.c).mult (x.toNat, y.toNat) k)

/-- `curve.Add(x1, y1, x2, y2)` (vrf/vrf_ec.go:182), which returns new numbers. -/
def addPoints (E : VRF.Ext) (o : CurveObj) (p q : Ref × Ref) : Prog (Ref × Ref) := do
  let a ← read p.1
  let b ← read p.2
  let c ← read q.1
  let d ← read q.2
  newPair ((E.ops o.c).add (a.toNat, b.toNat) (c.toNat, d.toNat))

/-- vrf/vrf_ec.go:128-134 and 195-201: the bytes that are hashed to the challenge. -/
def challengeInput (pub : PubObj) (H : Ref × Ref) (vrf : Bytes) (A B : Ref × Ref) : Prog (Res Bytes) := do
  let b1 ← marshalAll pub.curve [(pub.curve.Gx, pub.curve.Gy), H, (pub.X, pub.Y)]
  let b2 ← marshalAll pub.curve [A, B]
  return b1.bind fun b1 => b2.map fun b2 => b1 ++ vrf ++ b2

/-- vrf/vrf_ec.go:135-153: the rest of `Evaluate`, from the challenge input on; `ri` is the nonce (line 113). -/
def evalTail (E : VRF.Ext) (a : Signature.HashAlg) (priv : PrivObj) (one ri : Ref) (vrf b : Bytes) (fuel : Nat) :
    Prog (Option (Res Bytes)) := do
  match ← hashToIntFrom E a priv.pub.curve one b fuel 0 with
  | none => return none
  | some s => do
    let sD ← newInt 0
    mul sD s priv.D
    let t ← newInt 0
    sub t ri sD
    mod t t priv.pub.curve.N
    let sv ← read s
    let tv ← read t
    return some (.ok (beFix priv.pub.curve.c.byteSize sv.toNat ++ beFix priv.pub.curve.c.byteSize tv.toNat ++ vrf))

/-- vrf/vrf_ec.go:122-153: `Evaluate` once the point `H` is known. -/
def evalWith (E : VRF.Ext) (a : Signature.HashAlg) (priv : PrivObj) (one ri : Ref) (r : Nat) (H : Ref × Ref)
    (fuel : Nat) : Prog (Option (Res Bytes)) := do
  let d ← read priv.D
  let sH ← mult E priv.pub.curve H d.toNat
  match ← marshal priv.pub.curve sH with
  | .err m => return some (.err m)
  | .panic m => return some (.panic m)
  | .ok vrf => do
    let rG ← newPair ((E.ops priv.pub.curve.c).baseMult r)
    let rH ← mult E priv.pub.curve H r
    match ← challengeInput priv.pub H vrf rG rH with
    | .err m => return some (.err m)
    | .panic m => return some (.panic m)
    | .ok b => evalTail E a priv one ri vrf b fuel

/-- vrf/vrf_ec.go:99-154 `Evaluate`, without the index. -/
def evaluate (E : VRF.Ext) (a : Signature.HashAlg) (priv : PrivObj) (one : Ref) (msg : Bytes) (nonce : Res Bytes)
    (draws : Nat → List Nat) (fuel : Nat) : Prog (Option (Res Bytes)) :=
  if priv.pub.curve.c.byteSize ≠ VRF.size a then return some (.err "failed to evaluate vrf")
  else
    match nonce with
    | .err _ => return some (.err "failed to evaluate vrf")
    | .panic m => return some (.panic m)
    | .ok r => do
      let ri ← newInt (natOfBytes r)
      match ← marshal priv.pub.curve (priv.pub.X, priv.pub.Y) with
      | .err m => return some (.err m)
      | .panic m => return some (.panic m)
      | .ok pkb => do
        match ← hashToCurveFrom E a priv.pub.curve (pkb ++ msg) draws 100 0 with
        | none => return none
        | some none => return some (.panic "nil pointer dereference")
        | some (some H) => evalWith E a priv one ri (natOfBytes r) H fuel

/-- vrf/vrf_ec.go:180-182, 190-216: `ProofToHash` once the points `U` and `H` are known. -/
def checkWith (E : VRF.Ext) (a : Signature.HashAlg) (pk : PubObj) (one : Ref) (sb tb vrf : Bytes) (U H : Ref × Ref)
    (fuel : Nat) : Prog (Option (Res Bytes)) := do
  let tG ← newPair ((E.ops pk.curve.c).baseMult (natOfBytes tb))
  let ksG ← mult E pk.curve (pk.X, pk.Y) (natOfBytes sb)
  let A ← addPoints E pk.curve tG ksG
  let tH ← mult E pk.curve H (natOfBytes tb)
  let sH ← mult E pk.curve U (natOfBytes sb)
  let B ← addPoints E pk.curve tH sH
  match ← challengeInput pk H vrf A B with
  | .err m => return some (.err m)
  | .panic m => return some (.panic m)
  | .ok b => do
    match ← hashToIntFrom E a pk.curve one b fuel 0 with
    | none => return none
    | some h2 => do
      let h ← read h2
      return some (if sb = beFix pk.curve.c.byteSize h.toNat then .ok (E.hash .sha256 vrf) else .err "invalid VRF proof")

/-- vrf/vrf_ec.go:157-217 `ProofToHash`; lines 180 to 182, which only allocate, are run after `hashToCurve`. -/
def proofToHash (E : VRF.Ext) (a : Signature.HashAlg) (pk : PubObj) (one : Ref) (msg proof : Bytes)
    (draws : Nat → List Nat) (fuel : Nat) : Prog (Option (Res Bytes)) :=
  let n := pk.curve.c.byteSize
  if n ≠ VRF.size a then return some (.err "hash function does not match elliptic curve bitsize")
  else if proof.length ≠ 2 * n + (2 * n + 1) then return some (.err "invalid VRF proof")
  else
    let vrf := (proof.drop (2 * n)).take (2 * n + 1)
    match VRF.unmarshal E pk.curve.c vrf with
    | none => return some (.err "invalid VRF proof")
    | some U => do
      let U ← newPair U
      match ← marshal pk.curve (pk.X, pk.Y) with
      | .err m => return some (.err m)
      | .panic m => return some (.panic m)
      | .ok pkb => do
        match ← hashToCurveFrom E a pk.curve (pkb ++ msg) draws 100 0 with
        | none => return none
        | some none => return some (.panic "nil pointer dereference")
        | some (some H) => checkWith E a pk one (proof.take n) ((proof.drop n).take n) vrf U H fuel

end Verif.Big
