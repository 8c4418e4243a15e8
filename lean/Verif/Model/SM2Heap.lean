import Verif.Model.SerialHeap
import Verif.Model.SM2
/-!
# SM2 encryption, decryption and signing on the heap

`Encrypt`, `Decrypt`, `Sign` and `Verify` of Model/SM2.lean once more, with slices in place of byte strings and with the
slices that they make, fill and read on the way. `grow` is Go's rule for the capacity of a slice that `append` moves,
which is left open.
-/
namespace Verif.SM2

/-- Go: `append(s, b...)`; a nil slice is `Buffer.empty`. The rule is the one of `bytes.Buffer`. -/
def appendRef (grow : Nat → Nat) (s : Slice) (b : Bytes) : HeapM Slice := Buffer.write grow s b

/-- Go: `copy(s[i:], b)` for `i` within the slice: as many bytes as there is room for. -/
def copyRef (s : Slice) (i : Nat) (b : Bytes) : HeapM Unit := HeapM.copy s i (b.take (s.len - i))

/-- sm2/encryption.go:49-66: the loop of `sm3kdf`: the counter is written behind `zInput` in `zz`, and `pp` is appended
to. The first argument bounds the recursion as in `kdfLoop`. `sm3.Sum` returns an array, not a slice. -/
def kdfLoopRef (grow : Nat → Nat) (zz : Slice) (zLen : Nat) : Nat → Nat → Nat → Slice → HeapM Slice
  | 0, _, _, pp => pure pp
  | fuel + 1, i, rLen, pp =>
    if rLen > 0 then do
      HeapM.copy zz zLen [BitVec.ofNat 8 (i >>> 24)]
      HeapM.copy zz (zLen + 1) [BitVec.ofNat 8 (i >>> 16)]
      HeapM.copy zz (zLen + 2) [BitVec.ofNat 8 (i >>> 8)]
      HeapM.copy zz (zLen + 3) [BitVec.ofNat 8 i]
      let digest := sm3Sum (← HeapM.read zz)
      let pp ← if rLen ≥ 32 then appendRef grow pp (digest.take 32) else appendRef grow pp (digest.take rLen)
      kdfLoopRef grow zz zLen fuel (i + 1) (rLen - 32) pp
    else pure pp

/-- sm2/encryption.go:40-83 `sm3kdf`; `none` is `(nil, 0)`. Lines 45-47, which copy `zInput` to the new slice `zz` byte
by byte, are one copy. -/
def sm3kdfRef (grow : Nat → Nat) (z : Slice) (kLen : Nat) : HeapM (Option Slice) := do
  let zz ← HeapM.new (zeros (z.len + 4))
  copyRef zz 0 (← HeapM.read z)
  let pp ← kdfLoopRef grow zz z.len kLen 1 kLen Buffer.empty
  let b ← HeapM.read pp
  if kdfCheck z.len b then return some pp else return none

/-- sm2/encryption.go:85-208: `copy(dst[stop-len(n.Bytes()):], n.Bytes())`; a negative index panics. -/
def putRightRef (dst : Slice) (stop n : Nat) : HeapM Unit :=
  if byteLen n > stop then HeapM.lift (.panic "slice bounds out of range")
  else copyRef dst (stop - byteLen n) (bytesOfNat n)

/-- sm2/encryption.go:144-146 and 189-192. -/
def pointBufRef (x y : Nat) : HeapM Slice := do
  let b ← HeapM.new (zeros 64)
  putRightRef b 32 x
  putRightRef b 64 y
  return b

/-- sm2/encryption.go:153-155 and 201-203: the loop that sets `dst[i]` to `src[i] ^ key[i]`, from index `i` on, for the
`n` bytes that are left. -/
def xorLoopRef (dst src key : Slice) : Nat → Nat → HeapM Unit
  | 0, _ => pure ()
  | n + 1, i => do
    let a ← HeapM.read src
    let t ← HeapM.read key
    HeapM.copy dst i [a.getD i 0 ^^^ t.getD i 0]
    xorLoopRef dst src key n (i + 1)

/-- sm2/encryption.go:159-163 and 205-209: `C3`, from the slice that holds the message. -/
def macOfRef (x2 y2 : Nat) (m : Slice) : HeapM Bytes := do
  let tmp ← HeapM.new (zeros (32 + m.len + 32))
  putRightRef tmp 32 x2
  copyRef tmp 32 (← HeapM.read m)
  copyRef tmp (tmp.len - 32) (bytesOfNat y2)
  return sm3Sum (← HeapM.read tmp)

/-- sm2/encryption.go:136-157: one round of the loop with the nonce `k`. It returns `none` if the key derivation asks
for another nonce, and otherwise the coordinates of the common point. -/
def encryptTryRef (E : Ext) (grow : Nat → Nat) (pub : ECPub) (data encryptData c2 : Slice) (k : Nat) :
    HeapM (Option (Nat × Nat)) := do
  let p1 := E.ops.baseMult k
  putRightRef encryptData 32 p1.1
  putRightRef encryptData 64 p1.2
  if pub.x = 0 ∧ pub.y = 0 then HeapM.lift (.err "invalid public key")
  else do
    let p2 := E.ops.mult (pub.x, pub.y) k
    let x2y2 ← pointBufRef p2.1 p2.2
    match ← sm3kdfRef grow x2y2 data.len with
    | none => return none
    | some t => do
      xorLoopRef c2 data t data.len 0
      return some p2

/-- sm2/encryption.go:159-168: the end of `Encrypt`. -/
def encryptEndRef (data encryptData c2 : Slice) (p2 : Nat × Nat) : HeapM Slice := do
  let c3 ← macOfRef p2.1 p2.2 data
  copyRef encryptData 64 c3
  copyRef encryptData 96 (← HeapM.read c2)
  return encryptData

/-- sm2/encryption.go:130-168: the loop over nonces and the end. -/
def encryptLoopRef (E : Ext) (grow : Nat → Nat) (pub : ECPub) (data encryptData c2 : Slice) :
    List Bytes → Heap → Option (Res (Heap × Slice))
  | [], _ => none
  | b :: bs, h =>
    match encryptTryRef E grow pub data encryptData c2 (randFieldElement pub.curve b) h with
    | .err m => some (.err m)
    | .panic m => some (.panic m)
    | .ok (h', none) => encryptLoopRef E grow pub data encryptData c2 bs h'
    | .ok (h', some p2) => some (encryptEndRef data encryptData c2 p2 h')

/-- sm2/encryption.go:85-169 `Encrypt`. `io.ReadFull` writes to the new slice `entropy` only. -/
def encryptRef (E : Ext) (grow : Nat → Nat) (fuel : Nat) (rand : Bytes) (pub : ECPub) (data : Slice) (h : Heap) :
    Option (Res (Heap × Slice)) :=
  if pub.curve ≠ Curves.sm2 then some (.err "the curve type is not SM2Curve")
  else
    let e := h.alloc (zeros (96 + data.len))
    let hash := sm3Sum (data.read e.1)
    let n := entropyLen pub.curve
    let entropy := e.1.alloc (zeros n)
    if rand.length < n then some (.err "read error")
    else
      let h2 := entropy.1.store entropy.2.arr 0 (rand.take n)
      let key := (E.sha512 (bytesOfNat pub.x ++ entropy.2.read h2 ++ hash)).take 32
      let c2 := h2.alloc (zeros data.len)
      encryptLoopRef E grow pub data e.2 c2.2 (nonceReads E pub.curve key fuel) c2.1

/-- sm2/encryption.go:171: what `Decrypt` returns: the slice (`none` is nil) and the error (`none` is nil). -/
abbrev DecRef := Option Slice × Option String

/-- sm2/encryption.go:171-215 `Decrypt`. -/
def decryptRef (E : Ext) (grow : Nat → Nat) (priv : ECPriv) (data : Slice) : HeapM DecRef :=
  if priv.pub.curve ≠ Curves.sm2 then pure (none, some "the curve type is not SM2Curve")
  else if data.cap < 64 then HeapM.lift (.panic "slice bounds out of range")
  else do
    let x1 := natOfBytes (← HeapM.read (data.sub 0 32))
    let y1 := natOfBytes (← HeapM.read (data.sub 32 64))
    if x1 = 0 ∧ y1 = 0 then return (none, some "C1 is infinity")
    else if E.isOnCurve x1 y1 = false then return (none, some "C1 is not on curve")
    else do
      let p2 := E.ops.mult (x1, y1) priv.D
      let c2 ← pointBufRef p2.1 p2.2
      let msgLen := data.len - 96
      match ← sm3kdfRef grow c2 msgLen with
      | none => return (none, some "KDF calc error")
      | some t => do
        let msg ← HeapM.new (zeros msgLen)
        xorLoopRef msg (data.sub 96 data.len) t msgLen 0
        let c3 ← macOfRef p2.1 p2.2 msg
        if c3 ≠ (← HeapM.read (data.sub 64 96)) then return (some msg, some "Hash not match!")
        else return (some msg, none)

/-- sm2/signature.go:92-122 `getZ`: the digest is in a new slice, which may have spare capacity, and the message is
appended to it. -/
def getZRef (H : Bytes → Bytes) (grow : Nat → Nat) (msg : Slice) (pub : ECPub) (userID : Bytes) : HeapM Slice := do
  let z ← HeapM.lift (getZ H [] pub userID)
  let h ← appendRef grow Buffer.empty z
  appendRef grow h (← HeapM.read msg)

/-- sm2/signature.go:126-204 `Sign`; arguments as for `sign`. -/
def signRef (E : Ext) (H : Bytes → Bytes) (grow : Nat → Nat) (fuel : Nat) (rand : Bytes) (priv : ECPriv) (id : Bytes)
    (msg : Slice) (h : Heap) : Option (Res (Heap × (Nat × Nat))) :=
  match getZRef H grow msg priv.pub id h with
  | .err m => some (.err m)
  | .panic m => some (.panic m)
  | .ok (h1, mz) =>
    let digest := h1.alloc (H (mz.read h1))
    let n := entropyLen priv.pub.curve
    let entropy := digest.1.alloc (zeros n)
    if rand.length < n then some (.err "read error")
    else
      let h2 := entropy.1.store entropy.2.arr 0 (rand.take n)
      let priKey := h2.alloc (bytesOfNat priv.D)
      let h3 := priKey.1
      let key := (E.sha512 (priKey.2.read h3 ++ entropy.2.read h3 ++ digest.2.read h3)).take 32
      let e := natOfBytes (digest.2.read h3)
      (signLoop E priv.pub.curve (natOfBytes (priKey.2.read h3)) e (nonceReads E priv.pub.curve key fuel)).map fun rs =>
        .ok (h3, rs)

/-- sm2/signature.go:235-246: the end of `Verify`; `x` is the x-coordinate. -/
def verifyEndRef (H : Bytes → Bytes) (grow : Nat → Nat) (pub : ECPub) (id : Bytes) (msg : Slice) (r : Int) (x : Nat) :
    HeapM Bool := fun h =>
  match getZRef H grow msg pub id h with
  | .ok (h1, mz) =>
    let digest := h1.alloc (H (mz.read h1))
    .ok (digest.1, (((x + natOfBytes (digest.2.read digest.1)) % pub.curve.N : Nat) : Int) == r)
  | _ => .ok (h, false)

/-- sm2/signature.go:207-247 `Verify`. -/
def verifyRef (E : Ext) (H : Bytes → Bytes) (grow : Nat → Nat) (pub : ECPub) (id : Bytes) (msg : Slice) (r s : Int) :
    HeapM Bool :=
  let N := pub.curve.N
  if N = 0 then pure false
  else if r ≤ 0 ∨ r ≥ N ∨ s ≤ 0 ∨ s ≥ N then pure false
  else
    let t := (r + s) % N
    if t ≤ 0 then pure false
    else
      let q := combine E pub s.toNat t.toNat
      if q.1 = 0 ∧ q.2 = 0 then pure false
      else verifyEndRef H grow pub id msg r q.1

end Verif.SM2
