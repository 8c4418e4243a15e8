import Verif.Lemmas.SM2Heap
import Verif.Props.SM2Enc
/-!
# C131: SM2 encryption, decryption, signing and verification leave their arguments alone
-/
namespace Verif.Props

open Verif.Spec

/-- C131: `sm2.Encrypt` returns the bytes that the model without memory returns, or fails as it does; the bytes are in a
new array, and no memory that was there has changed: not the message, and not what is in the capacity beyond it. -/
theorem C131_encrypt (E : SM2.Ext) (grow : Nat → Nat) (fuel : Nat) (rand : Bytes) (pub : ECPub) (data : Slice) (h : Heap)
    (hv : data.Valid h) :
    OutcomeOpt h (FreshCopy h) (SM2.encryptRef E grow fuel rand pub data h) (SM2.encrypt E fuel rand pub (data.read h)) :=
  SM2.encryptRef_ok E grow fuel rand pub data h hv

/-- C131: the same for `sm2.Decrypt`, also where it returns a message together with an error. -/
theorem C131_decrypt (E : SM2.Ext) (grow : Nat → Nat) (priv : ECPriv) (data : Slice) (h : Heap) (hv : data.Valid h) :
    Outcome h (DecAt h) (SM2.decryptRef E grow priv data h) (SM2.decrypt E priv (data.read h) (spareOf h data)) :=
  SM2.decryptRef_ok E grow priv data h hv

/-- C131: `sm2.Sign` returns the numbers that the model without memory returns and changes no memory. -/
theorem C131_sign (E : SM2.Ext) (H : Bytes → Bytes) (grow : Nat → Nat) (fuel : Nat) (rand : Bytes) (priv : ECPriv)
    (id : Bytes) (msg : Slice) (h : Heap) (hv : msg.Valid h) :
    OutcomeOpt h (fun _ a b => a = b) (SM2.signRef E H grow fuel rand priv id msg h)
      (SM2.sign E H fuel rand priv id (msg.read h)) :=
  SM2.signRef_ok E H grow fuel rand priv id msg h hv

/-- C131: the same for `sm2.Verify`. -/
theorem C131_verify (E : SM2.Ext) (H : Bytes → Bytes) (grow : Nat → Nat) (pub : ECPub) (id : Bytes) (msg : Slice)
    (r s : Int) (h : Heap) (hv : msg.Valid h) :
    Outcome h (fun _ a b => a = b) (SM2.verifyRef E H grow pub id msg r s h)
      (.ok (SM2.verify E H pub id (msg.read h) r s)) :=
  SM2.verifyRef_ok E H grow pub id msg r s h hv

/-- C131: what this means for a message that is overwritten after it was encrypted: whatever was done since the call to
the memory that was there before it, as long as nobody writes to the result, decrypting the result gives what decrypting
the ciphertext of the original message gives. -/
theorem C131_later (E : SM2.Ext) (grow : Nat → Nat) (fuel : Nat) (rand : Bytes) (pub : ECPub) (data : Slice) (h : Heap)
    (hv : data.Valid h) (h' : Heap) (c : Slice) (he : SM2.encryptRef E grow fuel rand pub data h = some (.ok (h', c)))
    (h2 : Heap) (hn : h'.next ≤ h2.next) (hm : ∀ a, h.next ≤ a → a < h'.next → h2.mem a = h'.mem a) (priv : ECPriv) :
    ∃ ct, SM2.encrypt E fuel rand pub (data.read h) = some (.ok ct) ∧
      Outcome h2 (DecAt h2) (SM2.decryptRef E grow priv c h2) (SM2.decrypt E priv ct (spareOf h2 c)) := by
  have e := C131_encrypt E grow fuel rand pub data h hv
  rw [he] at e
  revert e
  generalize SM2.encrypt E fuel rand pub (data.read h) = v
  intro e
  rcases v with _ | ct | m | m
  · exact e.elim
  · obtain ⟨k, ⟨f1, f2, f3⟩, f4, f5⟩ := e
    have hmem := hm c.arr f4 f1
    refine ⟨ct, rfl, ?_⟩
    have hr : c.read h2 = ct := by
      rw [← f5]
      unfold Slice.read
      rw [hmem]
    have := C131_decrypt E grow priv c h2 ⟨f1.trans_le hn, f2, by rw [hmem]; exact f3⟩
    rwa [hr] at this
  · exact e.elim
  · exact e.elim

/-! Cases: a message of one byte in an array of two, with one byte behind it. -/

/-- The heap. -/
def msgHeap : Heap := ⟨fun a => if a = 0 then [0x61, 0x62] else [], 1⟩

/-- The message. -/
def msgSlice : Slice := ⟨0, 0, 1, 2⟩

theorem msgSlice_valid : msgSlice.Valid msgHeap := ⟨by decide, by decide, by decide⟩

/-- `Encrypt` returns a ciphertext whenever the model without memory does, and both bytes are as before. -/
theorem msgSlice_encrypt (E : SM2.Ext) (grow : Nat → Nat) (fuel : Nat) (rand : Bytes) (pub : ECPub)
    (hc : ∃ ct, SM2.encrypt E fuel rand pub [0x61] = some (.ok ct)) :
    ∃ h' c, SM2.encryptRef E grow fuel rand pub msgSlice msgHeap = some (.ok (h', c)) ∧
      h'.mem 0 = [0x61, 0x62] ∧ c.arr ≠ 0 := by
  obtain ⟨ct, hc⟩ := hc
  have e := C131_encrypt E grow fuel rand pub msgSlice msgHeap msgSlice_valid
  have hr : msgSlice.read msgHeap = [0x61] := by decide
  rw [hr, hc] at e
  revert e
  generalize SM2.encryptRef E grow fuel rand pub msgSlice msgHeap = v
  intro e
  rcases v with _ | ⟨h', c⟩ | m | m
  · exact e.elim
  · refine ⟨h', c, rfl, e.1.2 0 (by decide), ?_⟩
    have : msgHeap.next ≤ c.arr := e.2.2.1
    have h1 : msgHeap.next = 1 := rfl
    omega
  · exact e.elim
  · exact e.elim

/-- The model without memory does for this key, after it rejected a nonce. -/
example (grow : Nat → Nat) : ∃ h' c,
    SM2.encryptRef refStale grow 2 (zeros 16) priv2.pub msgSlice msgHeap = some (.ok (h', c)) ∧
      h'.mem 0 = [0x61, 0x62] ∧ c.arr ≠ 0 :=
  msgSlice_encrypt _ _ _ _ _ (C42_stale_bytes.imp fun _ h => h.1)

end Verif.Props
