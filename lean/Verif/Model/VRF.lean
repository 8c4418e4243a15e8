import Verif.Model.Signature
/-!
# Model of package vrf

External: the methods of the curve objects (`elliptic.Curve`), the SHA-2 functions, `elliptic.GenerateKey`
and `crypto/rand`. `elliptic.Marshal` and `elliptic.Unmarshal` are modelled as in the Go versions that
go.mod admits (before 1.19 they do not insist that points to be marshalled are on the curve).

Outcomes are `Option (Res _)`: `none` means that the call has not returned with the given fuel (the number
of iterations of the loop without bound in `hashToInt`) and draws (the random numbers that the modular
square root consumes on P-224).
-/
namespace Verif.VRF
open Verif.Keypair
open Verif.Signature (HashAlg)

/-- vrf/vrf_ec.go:104: `hash.Hash.Size()`. -/
def size : HashAlg → Nat
  | .sha224 => 28
  | .sha256 => 32
  | .sha384 => 48
  | .sha512 => 64
  | .sha3_224 => 28
  | .sha3_256 => 32
  | .sha3_384 => 48
  | .sha3_512 => 64
  | .ripemd160 => 20
  | .sm3 => 32
  | .keccak256 => 32

/-- vrf/vrf_ec.go:21-48, vrf/vrf.go:21-32 (imports): the external parts. -/
structure Ext where
  /-- `btcec.S256().Name` -/
  k1name : String
  /-- the hash functions other than SM3 -/
  extHash : HashAlg → Bytes → Bytes
  /-- `ScalarBaseMult`, `ScalarMult`, `Add` of the curve object with these parameters -/
  ops : Curve → Spec.CurveOps
  /-- `IsOnCurve` -/
  isOnCurve : Curve → Nat → Nat → Bool

/-- vrf/vrf_ec.go:60-74, 85-95: the digest `h.Reset(); h.Write(..); h.Sum(nil)` of the concatenation of what
was written. -/
def Ext.hash (E : Ext) : HashAlg → Bytes → Bytes
  | .sm3 => SM2.sm3Sum
  | a => E.extHash a

/-- vrf/vrf.go:116-135 `getHash`; `none` is nil. -/
def getHash (E : Ext) (c : Curve) : Option HashAlg :=
  if c.bitSize = 224 then some .sha224
  else if c.bitSize = 256 then
    if c.name = "sm2p256v1" then some .sm3
    else if c.name = "P-256" ∨ c.name = E.k1name then some .sha256
    else none
  else if c.bitSize = 384 then some .sha384
  else none

/-- `elliptic.Marshal`. Coordinates that do not fit count as a panic (Go panics or overwrites, depending
on how long they are; this happens for malformed public keys only). -/
def marshal (c : Curve) (p : Nat × Nat) : Res Bytes :=
  if p.1 < 256 ^ c.byteSize ∧ p.2 < 256 ^ c.byteSize then
    .ok (4 :: (beFix c.byteSize p.1 ++ beFix c.byteSize p.2))
  else .panic "slice bounds out of range"

/-- A sequence of `b.Write(elliptic.Marshal(..))`. -/
def marshalAll (c : Curve) : List (Nat × Nat) → Res Bytes
  | [] => .ok []
  | p :: ps => (marshal c p).bind fun b => (marshalAll c ps).map fun bs => b ++ bs

/-- `elliptic.Unmarshal`; `none` is nil. -/
def unmarshal (E : Ext) (c : Curve) (data : Bytes) : Option (Nat × Nat) :=
  if data.length ≠ 1 + 2 * c.byteSize then none
  else if data.getD 0 0 ≠ 4 then none
  else
    let x := natOfBytes ((data.drop 1).take c.byteSize)
    let y := natOfBytes (data.drop (1 + c.byteSize))
    if x ≥ c.P ∨ y ≥ c.P then none
    else if !E.isOnCurve c x y then none
    else some (x, y)

/-- vrf/vrf_ec.go:60-74: the loop of `hashToCurve`, `n` iterations being left; iteration `i` has its own
draws. Inner `none` is nil. (`DecodePublicKey` never panics, so the last case is the error case.) -/
def hashToCurveFrom (E : Ext) (a : HashAlg) (c : Curve) (m : Bytes) (draws : Nat → List Nat) :
    Nat → Nat → Option (Option (Nat × Nat))
  | 0, _ => some none
  | n + 1, i =>
    let r := 2 :: E.hash a (beFix 4 i ++ m)
    match EC.decodePublicKey E.k1name (r.take (c.byteSize + 1)) (some c) (draws i) with
    | none => none
    | some (.ok p) => some (some (p.x, p.y))
    | some _ => hashToCurveFrom E a c m draws n (i + 1)

/-- vrf/vrf_ec.go:56-76 `hashToCurve`. -/
def hashToCurve (E : Ext) (a : HashAlg) (c : Curve) (m : Bytes) (draws : Nat → List Nat) :
    Option (Option (Nat × Nat)) :=
  hashToCurveFrom E a c m draws 100 0

/-- vrf/vrf_ec.go:85-95: the loop of `hashToInt` (the counter is a uint32; `beFix 4` wraps around as it
does). -/
def hashToIntFrom (E : Ext) (a : HashAlg) (c : Curve) (m : Bytes) : Nat → Nat → Option Nat
  | 0, _ => none
  | fuel + 1, i =>
    let k := natOfBytes ((E.hash a (beFix 4 i ++ m)).take c.byteSize)
    if k < c.N - 1 then some (k + 1) else hashToIntFrom E a c m fuel (i + 1)

/-- vrf/vrf_ec.go:81-96 `hashToInt`. -/
def hashToInt (E : Ext) (a : HashAlg) (c : Curve) (m : Bytes) (fuel : Nat) : Option Nat :=
  hashToIntFrom E a c m fuel 0

/-- vrf/vrf_ec.go:128-134 and 195-201: the bytes that are hashed to the challenge. -/
def challengeInput (c : Curve) (H pk : Nat × Nat) (vrf : Bytes) (A B : Nat × Nat) : Res Bytes :=
  (marshalAll c [(c.Gx, c.Gy), H, pk]).bind fun b1 =>
    (marshalAll c [A, B]).map fun b2 => b1 ++ vrf ++ b2

/-- vrf/vrf_ec.go:135-153: the rest of `Evaluate`, from the challenge input on. -/
def evalTail (E : Ext) (a : HashAlg) (c : Curve) (D ri : Nat) (vrf b : Bytes) (fuel : Nat) :
    Option (Res Bytes) :=
  (hashToInt E a c b fuel).map fun (s : Nat) =>
    let t := (((ri : Int) - (s : Int) * D) % c.N).toNat
    .ok (beFix c.byteSize s ++ beFix c.byteSize t ++ vrf)

/-- vrf/vrf_ec.go:120-153: `Evaluate` once the point `H` is known (`none`: nil, on which `ScalarMult`
panics). -/
def evalWith (E : Ext) (a : HashAlg) (priv : ECPriv) (ri : Nat) (H : Option (Nat × Nat)) (fuel : Nat) :
    Option (Res Bytes) :=
  let c := priv.pub.curve
  match H with
  | none => some (.panic "nil pointer dereference")
  | some H =>
    match marshal c ((E.ops c).mult H priv.D) with
    | .err m => some (.err m)
    | .panic m => some (.panic m)
    | .ok vrf =>
      match challengeInput c H (priv.pub.x, priv.pub.y) vrf ((E.ops c).baseMult ri) ((E.ops c).mult H ri) with
      | .err m => some (.err m)
      | .panic m => some (.panic m)
      | .ok b => evalTail E a c priv.D ri vrf b fuel

/-- vrf/vrf_ec.go:99-154 `Evaluate`, without the index (the SHA-256 of the last part of the proof).
`nonce` is the outcome of `elliptic.GenerateKey`. An error stands for a nil proof. -/
def evaluate (E : Ext) (a : HashAlg) (priv : ECPriv) (msg : Bytes) (nonce : Res Bytes)
    (draws : Nat → List Nat) (fuel : Nat) : Option (Res Bytes) :=
  let c := priv.pub.curve
  if c.byteSize ≠ size a then some (.err "failed to evaluate vrf")
  else
    match nonce with
    | .err _ => some (.err "failed to evaluate vrf")
    | .panic m => some (.panic m)
    | .ok r =>
      match marshal c (priv.pub.x, priv.pub.y) with
      | .err m => some (.err m)
      | .panic m => some (.panic m)
      | .ok pkb =>
        match hashToCurve E a c (pkb ++ msg) draws with
        | none => none
        | some H => evalWith E a priv (natOfBytes r) H fuel

/-- vrf/vrf_ec.go:202-216: the end of `ProofToHash`: comparison of `s` with the recomputed challenge; the
result is the index, `SHA256(vrf)`. -/
def checkTail (E : Ext) (a : HashAlg) (c : Curve) (sb vrf b : Bytes) (fuel : Nat) : Option (Res Bytes) :=
  (hashToInt E a c b fuel).map fun h2 =>
    if sb = beFix c.byteSize h2 then .ok (E.hash .sha256 vrf) else .err "invalid VRF proof"

/-- vrf/vrf_ec.go:180-216: `ProofToHash` once the points `U` (in the proof) and `H` are known. -/
def checkWith (E : Ext) (a : HashAlg) (pk : ECPub) (sb tb vrf : Bytes) (U : Nat × Nat)
    (H : Option (Nat × Nat)) (fuel : Nat) : Option (Res Bytes) :=
  let c := pk.curve
  let s := natOfBytes sb
  let t := natOfBytes tb
  match H with
  | none => some (.panic "nil pointer dereference")
  | some H =>
    let A := (E.ops c).add ((E.ops c).baseMult t) ((E.ops c).mult (pk.x, pk.y) s)
    let B := (E.ops c).add ((E.ops c).mult H t) ((E.ops c).mult U s)
    match challengeInput c H (pk.x, pk.y) vrf A B with
    | .err m => some (.err m)
    | .panic m => some (.panic m)
    | .ok b => checkTail E a c sb vrf b fuel

/-- vrf/vrf_ec.go:157-217 `ProofToHash`. -/
def proofToHash (E : Ext) (a : HashAlg) (pk : ECPub) (msg proof : Bytes) (draws : Nat → List Nat)
    (fuel : Nat) : Option (Res Bytes) :=
  let c := pk.curve
  let n := c.byteSize
  if n ≠ size a then some (.err "hash function does not match elliptic curve bitsize")
  else if proof.length ≠ 2 * n + (2 * n + 1) then some (.err "invalid VRF proof")
  else
    let vrf := (proof.drop (2 * n)).take (2 * n + 1)
    match unmarshal E c vrf with
    | none => some (.err "invalid VRF proof")
    | some U =>
      match marshal c (pk.x, pk.y) with
      | .err m => some (.err m)
      | .panic m => some (.panic m)
      | .ok pkb =>
        match hashToCurve E a c (pkb ++ msg) draws with
        | none => none
        | some H => checkWith E a pk (proof.take n) ((proof.drop n).take n) vrf U H fuel

/-- vrf/vrf.go:84-95 `ValidatePrivateKey`. -/
def validatePrivateKey (E : Ext) : PrivateKey → Bool
  | .ec _ priv => (getHash E priv.pub.curve).isSome
  | _ => false

/-- vrf/vrf.go:102-114 `ValidatePublicKey`. -/
def validatePublicKey (E : Ext) : PublicKey → Bool
  | .ec _ pub => (getHash E pub.curve).isSome
  | _ => false

/-- vrf/vrf.go:40-57 `Vrf`, on the heap. Both results are windows on the array of the buffer in
`Evaluate`, which may be longer than the proof (`spare`). Returns the heap, `vrf` and `nizk`. -/
def vrf (E : Ext) (h : Heap) (pri : PrivateKey) (msg : Bytes) (nonce : Res Bytes)
    (draws : Nat → List Nat) (fuel : Nat) (spare : Bytes) : Option (Res (Heap × Slice × Slice)) :=
  match pri with
  | .ec _ sk =>
    match getHash E sk.pub.curve with
    | none => some (.err "only support ECC key")
    | some a =>
      let n := sk.pub.curve.byteSize
      (evaluate E a sk msg nonce draws fuel).map fun r =>
        r.map fun proof =>
          let p := h.alloc (proof ++ spare)
          (p.1, p.2.sub (2 * n) (2 * n + 2 * n + 1), p.2.sub 0 (2 * n))
  | _ => some (.err "only support ECC key")

/-- vrf/vrf.go:60-77 `Verify`, on the heap: `append(nizk, vrf...)` may write behind `nizk`. -/
def verify (E : Ext) (h : Heap) (pub : PublicKey) (msg : Bytes) (vrf nizk : Slice)
    (draws : Nat → List Nat) (fuel : Nat) : Option (Res (Heap × Bool)) :=
  match pub with
  | .ec _ pk =>
    match getHash E pk.curve with
    | none => some (.err "only support ECC key")
    | some a =>
      let n := pk.curve.byteSize
      if vrf.len ≠ n * 2 + 1 ∨ nizk.len ≠ n * 2 then some (.ok (h, false))
      else
        let p := h.append nizk (vrf.read h)
        (proofToHash E a pk msg (p.2.read p.1) draws fuel).map fun r =>
          match r with
          | .ok _ => .ok (p.1, true)
          | .err _ => .ok (p.1, false)
          | .panic m => .panic m
  | _ => some (.err "only support ECC key")

end Verif.VRF
