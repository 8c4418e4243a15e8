import Verif.Model.VRF
import Verif.Model.SM2Hasher
/-!
# `Evaluate` and `ProofToHash` of package vrf with a hash object

Model/VRF.lean has a hash function in place of the argument `h`, and `evaluate` returns the proof only. Here
`h` is an object with a state, which the caller may have used before and may use afterwards, and `Evaluate`
returns both results. `sz` is `h.Size()`.
-/
namespace Verif.VRF
open Verif.Keypair
open Verif.SM2 (HashObj)

variable {σ : Type} (K : HashObj σ)

/-- vrf/vrf_ec.go:60-74: the loop of `hashToCurve`, `n` iterations being left. (`r[:byteLen+1]` is in range
because the callers have compared `byteLen` with `h.Size()`.) -/
def hashToCurveObj (E : Ext) (c : Curve) (m : Bytes) (draws : Nat → List Nat) :
    Nat → Nat → σ → σ × Option (Res (Option (Nat × Nat)))
  | 0, _, st => (st, some (.ok none))
  | n + 1, i, st =>
    let st := K.reset st
    let st := K.write st (beFix 4 i)
    let st := K.write st m
    match K.sum st [2] with
    | .err e => (st, some (.err e))
    | .panic e => (st, some (.panic e))
    | .ok r =>
      match EC.decodePublicKey E.k1name (r.take (c.byteSize + 1)) (some c) (draws i) with
      | none => (st, none)
      | some (.ok p) => (st, some (.ok (some (p.x, p.y))))
      | some _ => hashToCurveObj E c m draws n (i + 1) st

/-- vrf/vrf_ec.go:85-95: the loop of `hashToInt`. -/
def hashToIntObj (c : Curve) (m : Bytes) : Nat → Nat → σ → σ × Option (Res Nat)
  | 0, _, st => (st, none)
  | fuel + 1, i, st =>
    let st := K.reset st
    let st := K.write st (beFix 4 i)
    let st := K.write st m
    match K.sum st [] with
    | .err e => (st, some (.err e))
    | .panic e => (st, some (.panic e))
    | .ok r =>
      let k := natOfBytes (r.take c.byteSize)
      if k < c.N - 1 then (st, some (.ok (k + 1))) else hashToIntObj c m fuel (i + 1) st

/-- vrf/vrf_ec.go:101: `[32]byte{}`. -/
def nilIndex : Bytes := List.replicate 32 0

/-- vrf/vrf_ec.go:120-153: `Evaluate` once the point `H` is known. -/
def evalWithObj (E : Ext) (priv : ECPriv) (ri : Nat) (H : Option (Nat × Nat)) (fuel : Nat) (st : σ) :
    σ × Option (Res (Bytes × Option Bytes)) :=
  let c := priv.pub.curve
  match H with
  | none => (st, some (.panic "nil pointer dereference"))
  | some H =>
    match marshal c ((E.ops c).mult H priv.D) with
    | .err m => (st, some (.err m))
    | .panic m => (st, some (.panic m))
    | .ok vrf =>
      match challengeInput c H (priv.pub.x, priv.pub.y) vrf ((E.ops c).baseMult ri) ((E.ops c).mult H ri) with
      | .err m => (st, some (.err m))
      | .panic m => (st, some (.panic m))
      | .ok b =>
        let r := hashToIntObj K c b fuel 0 st
        (r.1, r.2.map fun s => s.map fun (s : Nat) =>
          let t := (((ri : Int) - (s : Int) * priv.D) % c.N).toNat
          (E.hash .sha256 vrf, some (beFix c.byteSize s ++ beFix c.byteSize t ++ vrf)))

/-- vrf/vrf_ec.go:99-154 `Evaluate`: the index and the proof (`none` is nil). -/
def evaluateObj (E : Ext) (sz : Nat) (st : σ) (priv : ECPriv) (msg : Bytes) (nonce : Res Bytes)
    (draws : Nat → List Nat) (fuel : Nat) : σ × Option (Res (Bytes × Option Bytes)) :=
  let c := priv.pub.curve
  if c.byteSize ≠ sz then (st, some (.ok (nilIndex, none)))
  else
    match nonce with
    | .err _ => (st, some (.ok (nilIndex, none)))
    | .panic m => (st, some (.panic m))
    | .ok r =>
      match marshal c (priv.pub.x, priv.pub.y) with
      | .err m => (st, some (.err m))
      | .panic m => (st, some (.panic m))
      | .ok pkb =>
        let q := hashToCurveObj K E c (pkb ++ msg) draws 100 0 st
        match q.2 with
        | none => (q.1, none)
        | some (.err m) => (q.1, some (.err m))
        | some (.panic m) => (q.1, some (.panic m))
        | some (.ok H) => evalWithObj K E priv (natOfBytes r) H fuel q.1

/-- vrf/vrf_ec.go:180-216: `ProofToHash` once the points `U` (in the proof) and `H` are known. -/
def checkWithObj (E : Ext) (pk : ECPub) (sb tb vrf : Bytes) (U : Nat × Nat) (H : Option (Nat × Nat))
    (fuel : Nat) (st : σ) : σ × Option (Res Bytes) :=
  let c := pk.curve
  let s := natOfBytes sb
  let t := natOfBytes tb
  match H with
  | none => (st, some (.panic "nil pointer dereference"))
  | some H =>
    let A := (E.ops c).add ((E.ops c).baseMult t) ((E.ops c).mult (pk.x, pk.y) s)
    let B := (E.ops c).add ((E.ops c).mult H t) ((E.ops c).mult U s)
    match challengeInput c H (pk.x, pk.y) vrf A B with
    | .err m => (st, some (.err m))
    | .panic m => (st, some (.panic m))
    | .ok b =>
      let r := hashToIntObj K c b fuel 0 st
      (r.1, r.2.map fun h2 => h2.bind fun h2 =>
        if sb = beFix c.byteSize h2 then .ok (E.hash .sha256 vrf) else .err "invalid VRF proof")

/-- vrf/vrf_ec.go:157-217 `ProofToHash`. -/
def proofToHashObj (E : Ext) (sz : Nat) (st : σ) (pk : ECPub) (msg proof : Bytes) (draws : Nat → List Nat)
    (fuel : Nat) : σ × Option (Res Bytes) :=
  let c := pk.curve
  let n := c.byteSize
  if n ≠ sz then (st, some (.err "hash function does not match elliptic curve bitsize"))
  else if proof.length ≠ 2 * n + (2 * n + 1) then (st, some (.err "invalid VRF proof"))
  else
    let vrf := (proof.drop (2 * n)).take (2 * n + 1)
    match unmarshal E c vrf with
    | none => (st, some (.err "invalid VRF proof"))
    | some U =>
      match marshal c (pk.x, pk.y) with
      | .err m => (st, some (.err m))
      | .panic m => (st, some (.panic m))
      | .ok pkb =>
        let q := hashToCurveObj K E c (pkb ++ msg) draws 100 0 st
        match q.2 with
        | none => (q.1, none)
        | some (.err m) => (q.1, some (.err m))
        | some (.panic m) => (q.1, some (.panic m))
        | some (.ok H) => checkWithObj K E pk (proof.take n) ((proof.drop n).take n) vrf U H fuel q.1

end Verif.VRF
