import Verif.Model.SM2
/-!
# `Sign` and `Verify` of package sm2 with a hash object

Model/SM2.lean has a function in place of the argument `hasher`. Here it is an object with a state, which the
caller may have used before and may use afterwards.
-/
namespace Verif.SM2

/-- sm2/signature.go:92, 126, 207 (parameter `hasher`): the methods of `hash.Hash` that are called. `sum` does
not change the state. -/
structure HashObj (σ : Type) where
  reset : σ → σ
  write : σ → Bytes → σ
  sum : σ → Bytes → Res Bytes

/-- sm3/sm3.go:58-110: the hash object of package sm3. -/
def sm3Obj : HashObj SM3.Digest where
  reset := SM3.reset
  write d p := (SM3.write d p).1
  sum := SM3.sum

variable {σ : Type} (K : HashObj σ)

/-- sm2/signature.go:92-122 `getZ`. -/
def getZObj (st : σ) (msg : Bytes) (pub : ECPub) (userID : Bytes) : σ × Res Bytes :=
  if pub.curve ≠ Curves.sm2 then (st, .err "the curve type is not SM2Curve")
  else
    let id := if userID.length = 0 then defaultID else userID
    let len := id.length * 8
    let blen : Bytes := [BitVec.ofNat 8 (len >>> 8), BitVec.ofNat 8 len]
    let st := K.reset st
    let st := K.write st blen
    let st := K.write st id
    let st := K.write st SM2Curve.aBytes
    let st := K.write st (bytesOfNat pub.curve.B)
    let st := K.write st (bytesOfNat pub.curve.Gx)
    let st := K.write st (bytesOfNat pub.curve.Gy)
    let st := K.write st (bytesOfNat pub.x)
    let st := K.write st (bytesOfNat pub.y)
    (st, (K.sum st []).map fun h => h ++ msg)

/-- sm2/signature.go:131-133 and 239-241: `Reset`, `Write(mz)`, `Sum(nil)`. -/
def digestObj (st : σ) (mz : Bytes) : σ × Res Bytes :=
  let st := K.write (K.reset st) mz
  (st, K.sum st [])

/-- sm2/signature.go:126-204 `Sign`; see `sign` for the other arguments. -/
def signObj (E : Ext) (st : σ) (fuel : Nat) (rand : Bytes) (priv : ECPriv) (id msg : Bytes) :
    σ × Option (Res (Nat × Nat)) :=
  let z := getZObj K st msg priv.pub id
  match z.2 with
  | .err m => (z.1, some (.err m))
  | .panic m => (z.1, some (.panic m))
  | .ok mz =>
    let d := digestObj K z.1 mz
    match d.2 with
    | .err m => (d.1, some (.err m))
    | .panic m => (d.1, some (.panic m))
    | .ok digest =>
      let n := entropyLen priv.pub.curve
      if rand.length < n then (d.1, some (.err "read error"))
      else
        let priKey := bytesOfNat priv.D
        let key := (E.sha512 (priKey ++ rand.take n ++ digest)).take 32
        let e := natOfBytes digest
        (d.1, (signLoop E priv.pub.curve (natOfBytes priKey) e (nonceReads E priv.pub.curve key fuel)).map Res.ok)

/-- sm2/signature.go:207-247 `Verify`. -/
def verifyObj (E : Ext) (st : σ) (pub : ECPub) (id msg : Bytes) (r s : Int) : σ × Res Bool :=
  let N := pub.curve.N
  if N = 0 then (st, .ok false)
  else if r ≤ 0 ∨ r ≥ N ∨ s ≤ 0 ∨ s ≥ N then (st, .ok false)
  else
    let t := (r + s) % N
    if t ≤ 0 then (st, .ok false)
    else
      let q := combine E pub s.toNat t.toNat
      if q.1 = 0 ∧ q.2 = 0 then (st, .ok false)
      else
        let z := getZObj K st msg pub id
        match z.2 with
        | .err _ => (z.1, .ok false)
        | .panic m => (z.1, .panic m)
        | .ok mz =>
          let d := digestObj K z.1 mz
          (d.1, d.2.map fun digest => (((q.1 + natOfBytes digest) % N : Nat) : Int) == r)

end Verif.SM2
