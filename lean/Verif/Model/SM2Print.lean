import Verif.Model.SM2
/-!
# What SM2 encryption and decryption write to standard output

`sm3kdf` contains a `fmt.Println`. Here `sm3kdf`, `Encrypt` and `Decrypt` are written again with the lines that
they print, in order, beside what they return.
-/
namespace Verif.SM2

/-- sm2/encryption.go:71: one line of output: the three numbers of
`fmt.Println(" len(pp): ", len(pp), " zLen: ", zLen, " i: ", i)`. -/
structure Line where
  len : Nat
  zLen : Nat
  i : Nat
deriving DecidableEq, Repr

/-- sm2/encryption.go:70-76: the scan for a byte that is not zero, from index `i`; the third argument is what is left
of `pp`. The lines printed and whether a nonzero byte was found. -/
def kdfScan (zLen pLen : Nat) : Nat → Bytes → List Line × Bool
  | _, [] => ([], false)
  | i, b :: bs =>
    if i < zLen then
      if b ≠ 0 then ([⟨pLen, zLen, i⟩], true)
      else
        let r := kdfScan zLen pLen (i + 1) bs
        (⟨pLen, zLen, i⟩ :: r.1, r.2)
    else ([], false)

/-- sm2/encryption.go:40-83 `sm3kdf` with its output. -/
def sm3kdfOut (z : Bytes) (kLen : Nat) : List Line × Option Bytes :=
  let pp := kdfLoop z kLen 1 kLen []
  let r := kdfScan z.length pp.length 0 pp
  (r.1, if r.2 then some pp else none)

/-- sm2/encryption.go:130-168: the loop of `Encrypt` with the output; `out` is what has been printed before. -/
def encryptLoopOut (E : Ext) (pub : ECPub) (data : Bytes) (out : List Line) :
    List Bytes → Bytes → List Line × Option (Res Bytes)
  | [], _ => (out, none)
  | b :: bs, buf =>
    let k := randFieldElement pub.curve b
    let (x1, y1) := E.ops.baseMult k
    match (putRight buf 32 x1).bind fun buf => putRight buf 64 y1 with
    | .err m => (out, some (.err m))
    | .panic m => (out, some (.panic m))
    | .ok buf =>
      if pub.x = 0 ∧ pub.y = 0 then (out, some (.err "invalid public key"))
      else
        let (x2, y2) := E.ops.mult (pub.x, pub.y) k
        match pointBuf x2 y2 with
        | .err m => (out, some (.err m))
        | .panic m => (out, some (.panic m))
        | .ok x2y2 =>
          match sm3kdfOut x2y2 data.length with
          | (ls, none) => encryptLoopOut E pub data (out ++ ls) bs buf
          | (ls, some t) =>
            let c2 := List.zipWith (· ^^^ ·) data t
            (out ++ ls, some ((macOf x2 y2 data).bind fun c3 =>
              let buf := (SM3.goCopyAt buf 64 c3).1
              .ok (SM3.goCopyAt buf 96 c2).1))

/-- sm2/encryption.go:85-169 `Encrypt` with its output; `rand` and `fuel` as for `sign`. -/
def encryptOut (E : Ext) (fuel : Nat) (rand : Bytes) (pub : ECPub) (data : Bytes) :
    List Line × Option (Res Bytes) :=
  if pub.curve ≠ Curves.sm2 then ([], some (.err "the curve type is not SM2Curve"))
  else
    let hash := sm3Sum data
    let n := entropyLen pub.curve
    if rand.length < n then ([], some (.err "read error"))
    else
      let key := (E.sha512 (bytesOfNat pub.x ++ rand.take n ++ hash)).take 32
      encryptLoopOut E pub data [] (nonceReads E pub.curve key fuel) (zeros (96 + data.length))

/-- sm2/encryption.go:171-215 `Decrypt` with its output; the arguments as for `decrypt`. -/
def decryptOut (E : Ext) (priv : ECPriv) (data spare : Bytes) : List Line × Res DecOut :=
  if priv.pub.curve ≠ Curves.sm2 then ([], .ok (none, some "the curve type is not SM2Curve"))
  else
    let buf := data ++ spare
    if buf.length < 64 then ([], .panic "slice bounds out of range")
    else
      let x1 := natOfBytes (buf.take 32)
      let y1 := natOfBytes ((buf.drop 32).take 32)
      if x1 = 0 ∧ y1 = 0 then ([], .ok (none, some "C1 is infinity"))
      else if E.isOnCurve x1 y1 = false then ([], .ok (none, some "C1 is not on curve"))
      else
        let (x2, y2) := E.ops.mult (x1, y1) priv.D
        match pointBuf x2 y2 with
        | .err m => ([], .err m)
        | .panic m => ([], .panic m)
        | .ok c2 =>
          let msgLen := data.length - 96
          match sm3kdfOut c2 msgLen with
          | (ls, none) => (ls, .ok (none, some "KDF calc error"))
          | (ls, some t) =>
            let msg := List.zipWith (· ^^^ ·) (data.drop 96) t
            (ls, (macOf x2 y2 msg).bind fun c3 =>
              if c3 ≠ (data.drop 64).take 32 then .ok (some msg, some "Hash not match!")
              else .ok (some msg, none))

end Verif.SM2
