import Verif.Model.SerialHeap
import Verif.Model.Wif
/-!
# WIF on the heap

The functions of Model/Wif.lean once more with their byte slices on a heap, to tell which of them are cleared. A
function returns the heap also when it fails. Only byte slices are on the heap: the words of big integers, Go strings
(`string(buf)`) and the intermediate slices of the external functions are not modelled.
-/
namespace Verif.Keypair
open Verif.EC

/-- keypair/wif.go:78-82 `clearBytes`. -/
def clearBytes (s : Slice) (h : Heap) : Heap := h.store s.arr s.off (zeros s.len)

/-- keypair/wif.go:36-51 `Key2WIF`. The memory after a panic of `SerializePrivateKey` is not modelled. -/
def key2WIFRef (E : Ext) (W : WifExt) (grow : Nat → Nat) (key : PrivRef) (h : Heap) : Heap × Res Slice :=
  match serializePrivateKeyRef E grow key h with
  | .err m => (h, .err m)
  | .panic m => (h, .panic m)
  | .ok (h1, data) =>
    if data.len < 34 ∨ (data.read h1).getD 0 0 ≠ PK_ECDSA ∨ (data.read h1).getD 1 0 ≠ P256 then
      (h1, .err "only ECDSA P-256 keys support WIF")
    else
      let buf := data.sub 1 34
      let h2 := h1.store buf.arr buf.off [0x80]
      let r3 := h2.append buf [0x01]
      let r4 := r3.1.append r3.2 (W.checksum (r3.2.read r3.1))
      let bi := natOfBytes (r4.2.read r4.1)
      let h5 := clearBytes data r4.1
      let h6 := clearBytes r4.2 h5
      let r7 := h6.alloc (decText bi)
      match W.b58enc (r7.2.read r7.1) with
      | .ok w => let r8 := r7.1.alloc w; (r8.1, .ok r8.2)
      | .err m => (r7.1, .err m)
      | .panic m => (r7.1, .panic m)

/-- keypair/wif.go:53-76 `WIF2Key`. -/
def wif2KeyRef (E : Ext) (W : WifExt) (wif : Slice) (h : Heap) : Heap × Res PrivateKey :=
  match W.b58dec (wif.read h) with
  | .err m => (h, .err m)
  | .panic m => (h, .panic m)
  | .ok text =>
    let r1 := h.alloc text
    let bi := setString (r1.2.read r1.1)
    let h2 := clearBytes r1.2 r1.1
    match bi with
    | none => (h2, .err "parse WIF error, invalid base58 data")
    | some bi =>
      let r3 := h2.alloc (bytesOfNat bi.natAbs)
      let buf := r3.2.read r3.1
      let pos : Int := buf.length - 4
      if pos ≠ 34 then (r3.1, .err ("invalid length: " ++ toString pos))
      else if W.checksum (buf.take 34) ≠ buf.drop 34 then (r3.1, .err "invalid WIF data, checksum failed")
      else
        let pri := constructPrivateKey E ((buf.take 33).drop 1) Curves.p256
        (clearBytes r3.2 r3.1, .ok (.ec .ecdsa pri))

/-- keypair/key.go:423-443 `GetP256KeyPairFromWIF`. The deferred `clearBytes` of line 434 runs also on an error and on
a panic. -/
def getP256KeyPairFromWIFRef (E : Ext) (W : WifExt) (wif : Slice) (h : Heap) : Heap × Res PrivateKey :=
  match W.b58dec (wif.read h) with
  | .err m => (h, .err m)
  | .panic m => (h, .panic m)
  | .ok text =>
    let r1 := h.alloc text
    let bi := setString (r1.2.read r1.1)
    let h2 := clearBytes r1.2 r1.1
    match bi with
    | none => (h2, .err "parse WIF error, invalid base58 data")
    | some bi =>
      let r3 := h2.alloc (bytesOfNat bi.natAbs)
      let buf := r3.2.read r3.1
      let res : Res PrivateKey :=
        if buf.length < 4 then .panic "slice bounds out of range"
        else
          let pos := buf.length - 4
          if W.checksum (buf.take pos) ≠ buf.drop pos then .err "invalid WIF data, checksum failed"
          else if pos < 2 then .panic "slice bounds out of range"
          else .ok (.ec .ecdsa (constructPrivateKey E ((buf.take (pos - 1)).drop 1) Curves.p256))
      (clearBytes r3.2 r3.1, res)

end Verif.Keypair
