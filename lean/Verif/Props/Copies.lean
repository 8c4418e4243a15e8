import Verif.Lemmas.SerialHeap
/-!
# C128: serialized, encrypted and decrypted keys are in memory of their own
-/
namespace Verif.Props

open Verif.Spec Verif.Keypair

/-- C128: `SerializePublicKey` returns the bytes that the model without memory returns, or panics as it does; the bytes
are in a new array, and no memory that was there has changed. `grow` is the growth rule of `bytes.Buffer`. -/
theorem C128_public (E : Ext) (grow : Nat → Nat) (h : Heap) (key : PubRef) (hv : ∀ s, key = .ed s → s.Valid h) :
    Outcome h (FreshCopy h) (serializePublicKeyRef E grow key h) (serializePublicKey E (key.read h)) :=
  serializePub_outcome E grow h key hv

/-- C128: the same for `SerializePrivateKey`. -/
theorem C128_private (E : Ext) (grow : Nat → Nat) (h : Heap) (key : PrivRef) (v : PrivateKey)
    (hk : key.read h = some v) (hv : ∀ s, key = .ed s → s.Valid h) :
    Outcome h (FreshCopy h) (serializePrivateKeyRef E grow key h) (serializePrivateKey E v) := by
  have e := serializePriv_outcome E grow h key hv
  rwa [hk] at e

/-- C128: the same for `Serialize` of signatures. -/
theorem C128_signature (grow : Nat → Nat) (h : Heap) (sig : Option (Signature.Sig Slice))
    (hv : ∀ sch s, sig = some ⟨sch, .bytes s⟩ → s.Valid h) :
    Outcome h (FreshCopy h) (Signature.serializeRef grow sig h)
      (Signature.serialize (sig.map (Signature.Sig.map (Signature.bufOf h)))) :=
  Signature.serialize_outcome grow h sig hv

/-- C128: the same for `EncryptWithCustomScrypt`: ciphertext and salt of the protected key are in two new arrays. -/
theorem C128_encrypt (X : ProtExt) (h : Heap) (key : PrivRef) (v : PrivateKey) (hk : key.read h = some v)
    (hv : ∀ s, key = .ed s → s.Valid h) (addr pwd : Bytes) (param : ScryptParam) (salt : Res Bytes) :
    Outcome h (ProtAt h) (encryptRef X key addr pwd param salt h) (encryptWithCustomScrypt X v addr pwd param salt) :=
  encrypt_outcome X (KeptHeap.refl h) key v hk hv addr pwd param salt

/-- C128: the same for `DecryptWithCustomScrypt`: also an Ed25519 key that it returns is in a new array. -/
theorem C128_decrypt (E : Ext) (X : ProtExt) (hX : X.Lawful) (h : Heap) (prot : Option ProtRef)
    (hk : ∀ p, prot = some p → p.key.Valid h) (pwd : Bytes) (param : ScryptParam) :
    Outcome h (PrivAt h) (decryptRef E X prot pwd param h)
      (decryptWithCustomScrypt E X (prot.map (ProtRef.read h)) pwd param) :=
  decrypt_outcome E X hX h prot hk pwd param

/-- C128: the same for `ReencryptPrivateKey`: the new protected key shares nothing with the old one. -/
theorem C128_reencrypt (E : Ext) (X : ProtExt) (hX : X.Lawful) (h : Heap) (prot : Option ProtRef)
    (hk : ∀ p, prot = some p → p.key.Valid h) (oldPwd newPwd : Bytes) (oldParam newParam : ScryptParam)
    (salt : Res Bytes) :
    Outcome h (ProtAt h) (reencryptRef E X prot oldPwd newPwd oldParam newParam salt h)
      (reencryptPrivateKey E X (prot.map (ProtRef.read h)) oldPwd newPwd oldParam newParam salt) :=
  reencrypt_outcome E X hX h prot hk oldPwd newPwd oldParam newParam salt

/-- C128: what this means: whatever is written later into memory that was there before the call, such as the key or the
old buffer, the result stays the same; and whatever is written later into the result, all slices that were there show
what they showed before the call. -/
theorem C128_independent (h h' : Heap) (s : Slice) (b : Bytes) (hk : KeptHeap h h') (hs : FreshCopy h h' s b) :
    (∀ h2 : Heap, (∀ a, h.next ≤ a → h2.mem a = h'.mem a) → s.read h2 = b) ∧
    (∀ h2 : Heap, (∀ a, a ≠ s.arr → h2.mem a = h'.mem a) → ∀ v : Slice, v.Valid h → v.read h2 = v.read h) := by
  refine ⟨fun h2 hw => ?_, fun h2 hw v hv => ?_⟩
  · rw [← hs.2.2]
    unfold Slice.read
    rw [hw _ hs.2.1]
  · unfold Slice.read
    rw [hw _ (by have := hs.2.1; have := hv.1; omega), hk.2 _ hv.1]

/-! A case: an Ed25519 private key in a heap with one array; `SerializePrivateKey` returns its 66 bytes, and they stay
when the key is overwritten. -/

/-- A heap with one array of 64 bytes. -/
def edHeap (key : Bytes) : Heap := ⟨fun a => if a = 0 then key else [], 1⟩

/-- The key. -/
def edSlice : Slice := ⟨0, 0, 64, 64⟩

theorem edSlice_valid (key : Bytes) (hl : key.length = 64) : edSlice.Valid (edHeap key) :=
  ⟨Nat.zero_lt_one, le_rfl, by simp [edHeap, edSlice, hl]⟩

theorem edSlice_read (key : Bytes) (hl : key.length = 64) : edSlice.read (edHeap key) = key := by
  simp [Slice.read, edHeap, edSlice, ← hl]

example (E : Ext) (grow : Nat → Nat) (key other : Bytes) (hl : key.length = 64) :
    ∃ h' s, serializePrivateKeyRef E grow (.ed edSlice) (edHeap key) = .ok (h', s) ∧
      s.read (h'.store 0 0 other) = [PK_EDDSA, ED25519] ++ key := by
  have e := C128_private E grow (edHeap key) (.ed edSlice) (.ed key)
    (by simp only [PrivRef.read, edSlice_read key hl]) (fun s hs => by cases hs; exact edSlice_valid key hl)
  revert e
  generalize serializePrivateKeyRef E grow (.ed edSlice) (edHeap key) = r
  intro e
  rcases r with ⟨h', s⟩ | m | m
  · refine ⟨h', s, rfl, (C128_independent _ _ _ _ e.1 e.2).1 _ fun a ha => store_mem_ne _ _ _ _ _ ?_⟩
    have : (edHeap key).next = 1 := rfl
    omega
  · exact e.elim
  · exact e.elim

/-- Parsing an Ed25519 private key, in contrast, shares: C99. Decrypting one does not: the key that is returned does not
change when the protected key is overwritten. -/
example (E : Ext) (X : ProtExt) (hX : X.Lawful) (h : Heap) (p : ProtRef) (hp : p.key.Valid h) (pwd : Bytes)
    (param : ScryptParam) (h' : Heap) (s : Slice) (hd : decryptRef E X (some p) pwd param h = .ok (h', .ed s))
    (i : Nat) (b : Bytes) : s.read (h'.store p.key.arr i b) = s.read h' := by
  have e := C128_decrypt E X hX h (some p) (fun q hq => by cases hq; exact hp) pwd param
  rw [hd] at e
  revert e
  generalize decryptWithCustomScrypt E X ((some p).map (ProtRef.read h)) pwd param = v
  intro e
  rcases v with v | m | m
  · refine (C128_independent _ _ _ _ e.1 (e.2.2 s rfl)).1 _ fun a ha => store_mem_ne _ _ _ _ _ ?_
    have := hp.1
    omega
  · exact e.elim
  · exact e.elim

end Verif.Props
