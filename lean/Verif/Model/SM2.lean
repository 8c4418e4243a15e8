import Verif.Model.SM2Curve
import Verif.Model.SM3
import Verif.Spec.CurveOps
import Verif.Lemmas.Primality
/-!
# Model of sm2/signature.go and sm2/encryption.go

The curve arithmetic (`elliptic.Curve` methods of the SM2 curve, in assembly on amd64), AES-CTR, SHA-512
and the random source are parameters. `big.Int` values are naturals or integers. The loops that retry with
a new nonce run over a list of reads from the nonce stream; `none` means that the list ran out, that is,
the Go loop is still running.
-/
namespace Verif.SM2
open Verif.Spec (CurveOps OnCurve xy Pt LawfulBase)

/-- sm2/signature.go:21-33, sm2/encryption.go:21-36 (imports): the external parts. -/
structure Ext where
  /-- `ScalarBaseMult`, `ScalarMult`, `Add` of the SM2 curve object. -/
  ops : CurveOps
  /-- `IsOnCurve` of the SM2 curve object. -/
  isOnCurve : Nat → Nat → Bool
  /-- Method `Inverse` (sm2/signature.go:54-56), present on amd64 only. -/
  inverse : Option (Nat → Nat)
  /-- Method `CombinedMult` (sm2/signature.go:50-52), present on amd64 only: point, base scalar, scalar. -/
  combinedMult : Option (Nat × Nat → Nat → Nat → Nat × Nat)
  /-- crypto/sha512. -/
  sha512 : Bytes → Bytes
  /-- AES-256-CTR keystream with IV `aesIV`: key, offset, number of bytes. -/
  ctr : Bytes → Nat → Nat → Bytes

/-- sm2/signature.go:21-33, sm2/encryption.go:21-36 (imports): what is assumed of the external parts: the
curve methods compute in the group of points, for points other than infinity; a pair that `IsOnCurve` accepts
satisfies the equation and is multiplied as the point it denotes; `IsOnCurve` accepts reduced points. -/
structure Ext.Lawful (E : Ext) : Prop where
  base : LawfulBase Curves.sm2 (-3) E.ops.baseMult
  mult : ∀ [Fact Curves.sm2.P.Prime] (P : Pt Curves.sm2 (-3)) (x y k : Nat), P ≠ 0 →
    E.isOnCurve x y = true → (x % Curves.sm2.P, y % Curves.sm2.P) = xy P →
    E.ops.mult (x, y) k = xy (k • P)
  add : ∀ [Fact Curves.sm2.P.Prime] (P Q : Pt Curves.sm2 (-3)), E.ops.add (xy P) (xy Q) = xy (P + Q)
  onCurve : ∀ x y, E.isOnCurve x y = true → OnCurve Curves.sm2 (-3) x y
  onCurve' : ∀ x y, x < Curves.sm2.P → y < Curves.sm2.P → OnCurve Curves.sm2 (-3) x y →
    E.isOnCurve x y = true
  inverse : ∀ f, E.inverse = some f → ∀ k, k * f k % Curves.sm2.N = if k % Curves.sm2.N = 0 then 0 else 1
  inverse' : ∀ f, E.inverse = some f → ∀ k, k % Curves.sm2.N = 0 → f k % Curves.sm2.N = 0
  combined : ∀ [Fact Curves.sm2.P.Prime] (G P : Pt Curves.sm2 (-3)),
    xy G = (Curves.sm2.Gx, Curves.sm2.Gy) → P ≠ 0 → ∀ f, E.combinedMult = some f →
    ∀ s t, f (xy P) s t = xy (s • G + t • P)
  ctr_length : ∀ key off len, (E.ctr key off len).length = len

/-- sm2/signature.go:64-80 `randFieldElement` applied to the `BitSize/8 + 8` bytes it read. -/
def randFieldElement (c : Curve) (b : Bytes) : Nat := natOfBytes b % (c.N - 1 - 1) + 1

/-- sm2/signature.go:84-88 `fermatInverse`, with `big.Int.Exp` as repeated squaring. -/
def fermatInverse (k P : Nat) : Nat := Primality.powMod k (P - 2) P

/-- sm2/signature.go:43: the default user id, "1234567812345678". -/
def defaultID : Bytes :=
  [0x31, 0x32, 0x33, 0x34, 0x35, 0x36, 0x37, 0x38, 0x31, 0x32, 0x33, 0x34, 0x35, 0x36, 0x37, 0x38]

/-- sm2/signature.go:92-122 `getZ` after the nil check (keys here are not nil). The type assertion to
`SM2Curve` succeeds for the SM2 curve only. `hasher.Reset`, the `Write`s and `Sum(nil)` are `H` of the
concatenation (for SM3 this is property C02). -/
def getZ (H : Bytes → Bytes) (msg : Bytes) (pub : ECPub) (userID : Bytes) : Res Bytes :=
  if pub.curve ≠ Curves.sm2 then .err "the curve type is not SM2Curve"
  else
    let id := if userID.length = 0 then defaultID else userID
    let len := id.length * 8
    let blen : Bytes := [BitVec.ofNat 8 (len >>> 8), BitVec.ofNat 8 len]
    let h := H (blen ++ id ++ SM2Curve.aBytes ++ bytesOfNat pub.curve.B ++ bytesOfNat pub.curve.Gx
      ++ bytesOfNat pub.curve.Gy ++ bytesOfNat pub.x ++ bytesOfNat pub.y)
    .ok (h ++ msg)

/-- sm2/signature.go:190-195: `Inverse` if the curve has it, else Fermat. -/
def invOf (E : Ext) (N k : Nat) : Nat :=
  match E.inverse with
  | some f => f k
  | none => fermatInverse k N

/-- sm2/signature.go:171-198: one pass through the nested loops with the nonce `k`; `none` means that a
new nonce is drawn (by the inner loop, line 182, or the outer loop, line 198). `big.Int.Mod` is
Euclidean. -/
def signTry (E : Ext) (N D e k : Nat) : Option (Nat × Nat) :=
  let r := ((E.ops.baseMult k).1 + e) % N
  if r ≠ 0 ∧ r + k ≠ N then
    let rD := D * r
    let s : Int := (k : Int) - rD
    let d1 := D + 1
    let s := (s * (invOf E N d1 : Nat)) % (N : Int)
    if s ≠ 0 then some (r, s.toNat) else none
  else none

/-- sm2/signature.go:170-201: the loops over successive reads of the nonce stream. -/
def signLoop (E : Ext) (c : Curve) (D e : Nat) : List Bytes → Option (Nat × Nat)
  | [] => none
  | b :: bs =>
    match signTry E c.N D e (randFieldElement c b) with
    | some rs => some rs
    | none => signLoop E c D e bs

/-- Number of bytes of a read (sm2/signature.go:66). -/
def readLen (c : Curve) : Nat := c.bitSize / 8 + 8

/-- sm2/signature.go:135-138 and encryption.go:96-99: number of entropy bytes. -/
def entropyLen (c : Curve) : Nat := min ((c.bitSize + 7) / 16) 32

/-- sm2/signature.go:57-82, 150-170: the reads from the `cipher.StreamReader` over zeros: consecutive parts of
the keystream. -/
def nonceReads (E : Ext) (c : Curve) (key : Bytes) (fuel : Nat) : List Bytes :=
  (List.range fuel).map fun i => E.ctr key (readLen c * i) (readLen c)

/-- sm2/signature.go:126-204 `Sign`. `rand` is what the random source yields before it fails; `fuel`
bounds the number of nonces (`none`: the loop is still running after `fuel` nonces). `aes.NewCipher`
cannot fail on a 32-byte key, and `N` is not zero. -/
def sign (E : Ext) (H : Bytes → Bytes) (fuel : Nat) (rand : Bytes) (priv : ECPriv) (id msg : Bytes) :
    Option (Res (Nat × Nat)) :=
  match getZ H msg priv.pub id with
  | .err m => some (.err m)
  | .panic m => some (.panic m)
  | .ok mz =>
    let digest := H mz
    let n := entropyLen priv.pub.curve
    if rand.length < n then some (.err "read error")
    else
      let priKey := bytesOfNat priv.D
      let key := (E.sha512 (priKey ++ rand.take n ++ digest)).take 32
      let e := natOfBytes digest
      (signLoop E priv.pub.curve (natOfBytes priKey) e (nonceReads E priv.pub.curve key fuel)).map Res.ok

/-- sm2/signature.go:222-229: `s G + t P`. -/
def combine (E : Ext) (pub : ECPub) (s t : Nat) : Nat × Nat :=
  match E.combinedMult with
  | some f => f (pub.x, pub.y) s t
  | none => E.ops.add (E.ops.baseMult s) (E.ops.mult (pub.x, pub.y) t)

/-- sm2/signature.go:207-247 `Verify`. -/
def verify (E : Ext) (H : Bytes → Bytes) (pub : ECPub) (id msg : Bytes) (r s : Int) : Bool :=
  let N := pub.curve.N
  if N = 0 then false
  else if r ≤ 0 ∨ r ≥ N ∨ s ≤ 0 ∨ s ≥ N then false
  else
    let t := (r + s) % N
    if t ≤ 0 then false
    else
      let q := combine E pub s.toNat t.toNat
      if q.1 = 0 ∧ q.2 = 0 then false
      else
        match getZ H msg pub id with
        | .ok mz =>
          let e := natOfBytes (H mz)
          (((q.1 + e) % N : Nat) : Int) == r
        | _ => false

/-! ## Encryption -/

/-- `sm3.Sum` as a function (sm3/sm3.go:148-153); it never panics on data that fits in memory (C01). -/
def sm3Sum (m : Bytes) : Bytes :=
  match SM3.sumBytes m with
  | .ok d => d
  | _ => []

/-- sm2/encryption.go:49-66: the loop of `sm3kdf`. `rLen` is the number of bytes still wanted, `i` the
counter. The first argument bounds the recursion: every round takes at least one byte. -/
def kdfLoop (z : Bytes) : Nat → Nat → Nat → Bytes → Bytes
  | 0, _, _, pp => pp
  | fuel + 1, i, rLen, pp =>
    if rLen > 0 then
      let zz := z ++ [BitVec.ofNat 8 (i >>> 24), BitVec.ofNat 8 (i >>> 16), BitVec.ofNat 8 (i >>> 8),
        BitVec.ofNat 8 i]
      let digest := sm3Sum zz
      let pp := if rLen ≥ 32 then pp ++ digest.take 32 else pp ++ digest.take rLen
      kdfLoop z fuel (i + 1) (rLen - 32) pp
    else pp

/-- sm2/encryption.go:68-76: is one of the first `zLen` bytes nonzero. -/
def kdfCheck (zLen : Nat) (pp : Bytes) : Bool := (pp.take zLen).any (· ≠ 0)

/-- sm2/encryption.go:40-83 `sm3kdf` for a length `kLen ≥ 0` (a negative length behaves like 0: no
iterations, no bytes). `none` is `(nil, 0)`. The `fmt.Println` is in Model/SM2Print.lean. -/
def sm3kdf (z : Bytes) (kLen : Nat) : Option Bytes :=
  let pp := kdfLoop z kLen 1 kLen []
  if kdfCheck z.length pp then some pp else none

/-- sm2/encryption.go:85-166: `copy(dst[stop-len(n.Bytes()):], n.Bytes())`; a negative index panics. -/
def putRight (dst : Bytes) (stop n : Nat) : Res Bytes :=
  if byteLen n > stop then .panic "slice bounds out of range"
  else .ok (SM3.goCopyAt dst (stop - byteLen n) (bytesOfNat n)).1

/-- sm2/encryption.go:144-146 and 189-192: both coordinates right-aligned in 32 bytes each. -/
def pointBuf (x y : Nat) : Res Bytes := do
  let b ← putRight (zeros 64) 32 x
  putRight b 64 y

/-- sm2/encryption.go:159-163 and 205-209: `C3`. `y2` is copied to the start of the last 32 bytes. -/
def macOf (x2 y2 : Nat) (m : Bytes) : Res Bytes := do
  let tmp := zeros (32 + m.length + 32)
  let tmp ← putRight tmp 32 x2
  let tmp := (SM3.goCopyAt tmp 32 m).1
  let tmp := (SM3.goCopyAt tmp (tmp.length - 32) (bytesOfNat y2)).1
  .ok (sm3Sum tmp)

/-- sm2/encryption.go:130-168: the loop over nonces and the final assembly. `buf` is `encryptData`. -/
def encryptLoop (E : Ext) (pub : ECPub) (data : Bytes) : List Bytes → Bytes → Option (Res Bytes)
  | [], _ => none
  | b :: bs, buf =>
    let k := randFieldElement pub.curve b
    let (x1, y1) := E.ops.baseMult k
    match (putRight buf 32 x1).bind fun buf => putRight buf 64 y1 with
    | .err m => some (.err m)
    | .panic m => some (.panic m)
    | .ok buf =>
      if pub.x = 0 ∧ pub.y = 0 then some (.err "invalid public key")
      else
        let (x2, y2) := E.ops.mult (pub.x, pub.y) k
        match pointBuf x2 y2 with
        | .err m => some (.err m)
        | .panic m => some (.panic m)
        | .ok x2y2 =>
          match sm3kdf x2y2 data.length with
          | none => encryptLoop E pub data bs buf
          | some t =>
            let c2 := List.zipWith (· ^^^ ·) data t
            some ((macOf x2 y2 data).bind fun c3 =>
              let buf := (SM3.goCopyAt buf 64 c3).1
              .ok (SM3.goCopyAt buf 96 c2).1)

/-- sm2/encryption.go:85-169 `Encrypt`; `rand` and `fuel` as for `sign`. -/
def encrypt (E : Ext) (fuel : Nat) (rand : Bytes) (pub : ECPub) (data : Bytes) : Option (Res Bytes) :=
  if pub.curve ≠ Curves.sm2 then some (.err "the curve type is not SM2Curve")
  else
    let hash := sm3Sum data
    let n := entropyLen pub.curve
    if rand.length < n then some (.err "read error")
    else
      let key := (E.sha512 (bytesOfNat pub.x ++ rand.take n ++ hash)).take 32
      encryptLoop E pub data (nonceReads E pub.curve key fuel) (zeros (96 + data.length))

/-- sm2/encryption.go:171: what `Decrypt` returns: the byte slice (`none` is nil) and the error (`none` is
nil). -/
abbrev DecOut := Option Bytes × Option String

/-- sm2/encryption.go:171-215 `Decrypt`. The argument slice has contents `data` and, beyond its length,
`spare` in its capacity: `encryptData[:32]` and `encryptData[32:64]` reach into the capacity. -/
def decrypt (E : Ext) (priv : ECPriv) (data spare : Bytes) : Res DecOut :=
  if priv.pub.curve ≠ Curves.sm2 then .ok (none, some "the curve type is not SM2Curve")
  else
    let buf := data ++ spare
    if buf.length < 64 then .panic "slice bounds out of range"
    else
      let x1 := natOfBytes (buf.take 32)
      let y1 := natOfBytes ((buf.drop 32).take 32)
      if x1 = 0 ∧ y1 = 0 then .ok (none, some "C1 is infinity")
      else if E.isOnCurve x1 y1 = false then .ok (none, some "C1 is not on curve")
      else
        let (x2, y2) := E.ops.mult (x1, y1) priv.D
        (pointBuf x2 y2).bind fun c2 =>
          let msgLen := data.length - 96
          match sm3kdf c2 msgLen with
          | none => .ok (none, some "KDF calc error")
          | some t =>
            let msg := List.zipWith (· ^^^ ·) (data.drop 96) t
            (macOf x2 y2 msg).bind fun c3 =>
              if c3 ≠ (data.drop 64).take 32 then .ok (some msg, some "Hash not match!")
              else .ok (some msg, none)

end Verif.SM2
