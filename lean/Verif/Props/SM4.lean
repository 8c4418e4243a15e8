import Verif.Lemmas.SM4
/-!
# C03, C04, C05: SM4

Specification: `Verif.Spec.SM4` (Spec/SM4.lean). Model: `Verif.SM4` (Model/SM4.lean), on heap slices.
-/
namespace Verif.Props
open Verif

/-- Test (not a proof): the standard's example, evaluated by the kernel on the model. -/
example : SM4.cryptBytes (SM4.generateSubkeys (beFix 16 0x0123456789abcdeffedcba9876543210))
    (beFix 16 0x0123456789abcdeffedcba9876543210) false
      = beFix 16 0x681edf34d206965e86b3e94f536e4246 := by decide +kernel

/-- The field inversion of the S-box specification really is an inversion. -/
theorem spec_ginv : ∀ a : Byte, a ≠ 0 → Spec.SM4.gmul a (Spec.SM4.ginv a) = 1 := by
  set_option maxRecDepth 100000 in decide +kernel

/-- **C05** `NewCipher` succeeds exactly on 16-byte keys; otherwise the error carries the length. -/
theorem C05_newCipher_iff (key : Bytes) :
    (key.length = 16 → ∃ c, SM4.newCipher key = .ok c) ∧
    (key.length ≠ 16 → SM4.newCipher key = .error key.length) := by
  unfold SM4.newCipher
  constructor
  · intro h; simp [h]
  · intro h; rw [if_pos h]

example : SM4.newCipher (zeros 15) = .error 15 := rfl

/-- **C05** On slices of at least 16 bytes, wherever they lie and however they overlap (including
in place), `Encrypt`/`Decrypt` replace exactly the first 16 bytes of `dst`, by a value that depends
only on the key and on the first 16 bytes `src` had before the call; every other byte of memory keeps
its value. -/
theorem C05_crypt_frame (c : SM4.Cipher) (h : Heap) (dst src : Slice) (dec : Bool)
    (hd : dst.Valid h) (hd16 : 16 ≤ dst.len) (hs16 : 16 ≤ src.len) :
    ∃ h' out, (if dec then c.decrypt h dst src else c.encrypt h dst src) = .ok h' ∧
      out = SM4.cryptBytes c.subkeys ((src.read h).take 16) dec ∧ out.length = 16 ∧
      (dst.sub 0 16).read h' = out ∧
      (∀ a, a ≠ dst.arr → h'.mem a = h.mem a) ∧
      (∀ i, i < dst.off ∨ dst.off + 16 ≤ i → (h'.mem dst.arr)[i]? = (h.mem dst.arr)[i]?) ∧
      (h'.mem dst.arr).length = (h.mem dst.arr).length := by
  obtain ⟨_, hlc, hoc⟩ := hd
  let out := SM4.cryptBytes c.subkeys ((src.read h).take 16) dec
  have hb : out.length = 16 := rfl
  have hbound : dst.off + out.length ≤ (h.mem dst.arr).length := by omega
  refine ⟨h.store dst.arr dst.off out, out, ?_, rfl, rfl, ?_, ?_, ?_, ?_⟩
  · have hout : out = SM4.cryptBytes c.subkeys (src.read h) dec := SM4.cryptBytes_take _ _ _
    rw [hout]
    cases dec <;>
      simp only [SM4.Cipher.decrypt, SM4.Cipher.encrypt, SM4.cryptBlock, if_true,
        Bool.false_eq_true, if_false] <;>
      rw [if_neg (by omega), if_neg (by omega)]
  · exact read_store_self h dst.arr dst.off out (dst.cap - 0) hbound
  · intro a ha; exact store_mem_ne h _ _ _ a ha
  · intro i hi
    rw [store_mem_eq, getElem?_splice _ _ _ hbound, if_neg (by omega)]
  · rw [store_mem_eq, splice_length _ _ _ hbound]

/-- Non-vacuity: an in-place call (`dst` and `src` the same 20-byte slice at offset 3). -/
example : (⟨0, 3, 20, 25⟩ : Slice).Valid ⟨fun _ => zeros 30, 1⟩ ∧ 16 ≤ 20 := by
  simp [Slice.Valid]

/-- **C05** Shorter `src` or `dst` panics (never silently reads or writes elsewhere). -/
theorem C05_short_panics (c : SM4.Cipher) (h : Heap) (dst src : Slice)
    (hs : src.len < 16 ∨ dst.len < 16) :
    (c.encrypt h dst src).isPanic = true ∧ (c.decrypt h dst src).isPanic = true := by
  simp only [SM4.Cipher.encrypt, SM4.Cipher.decrypt, SM4.cryptBlock]
  rcases hs with hs | hs
  · simp [hs]
  · simp only [hs, if_true]
    constructor <;> split <;> rfl

example : (⟨0, 0, 15, 25⟩ : Slice).len < 16 ∨ (⟨0, 0, 16, 25⟩ : Slice).len < 16 := by decide

/-- The 16 bytes a block operation of the cipher for `key` produces from `b` (a fresh buffer). -/
def sm4Block (key b : Bytes) (dec : Bool) : Except Nat (Res Bytes) :=
  match SM4.newCipher key with
  | .error n => .error n
  | .ok c =>
    let h : Heap := ⟨fun i => if i = 0 then b else zeros 16, 2⟩
    let src : Slice := ⟨0, 0, b.length, b.length⟩
    let dst : Slice := ⟨1, 0, 16, 16⟩
    .ok ((if dec then c.decrypt h dst src else c.encrypt h dst src).map fun h' => dst.read h')

theorem sm4Block_eq (key b : Bytes) (dec : Bool) (hk : key.length = 16) (hb : 16 ≤ b.length) :
    sm4Block key b dec = .ok (.ok (SM4.cryptBytes (SM4.generateSubkeys key) b dec)) := by
  unfold sm4Block SM4.newCipher
  rw [if_neg (by omega)]
  simp only
  have := C05_crypt_frame ⟨SM4.generateSubkeys key⟩ ⟨fun i => if i = 0 then b else zeros 16, 2⟩
    ⟨1, 0, 16, 16⟩ ⟨0, 0, b.length, b.length⟩ dec (by simp [Slice.Valid]) (by simp)
    (by simpa using hb)
  obtain ⟨h', out, he, ho, _, hr, _⟩ := this
  rw [he]
  simp only [Res.map]
  have hr' : (⟨1, 0, 16, 16⟩ : Slice).read h' = out := hr
  rw [hr', ho, SM4.cryptBytes_take]
  simp [Slice.read]

/-- **C03** For every 16-byte key and block, decrypting an encrypted block, and encrypting a decrypted
block, gives the block back. -/
theorem C03_sm4_inverse (key b : Bytes) (hk : key.length = 16) (hb : b.length = 16) (dec : Bool) :
    ∃ x, sm4Block key b dec = .ok (.ok x) ∧ x.length = 16 ∧ sm4Block key x (!dec) = .ok (.ok b) := by
  refine ⟨_, sm4Block_eq key b dec hk (by omega), SM4.cryptBytes_length _ _ _, ?_⟩
  rw [sm4Block_eq key _ (!dec) hk (by rw [SM4.cryptBytes_length]; omega), SM4.crypt_undo _ _ (by omega)]
  rw [List.take_of_length_le (by omega)]

/-- **C03** The same on memory: encrypt in place, then decrypt in place, leaves memory as it was. -/
theorem C03_sm4_inverse_in_place (c : SM4.Cipher) (h : Heap) (s : Slice) (hv : s.Valid h)
    (h16 : 16 ≤ s.len) :
    ∃ h1 h2, c.encrypt h s s = .ok h1 ∧ c.decrypt h1 s s = .ok h2 ∧ ∀ a, h2.mem a = h.mem a := by
  obtain ⟨_, hlc, hoc⟩ := hv
  have hb : ∀ b : Bytes, b.length = 16 → s.off + b.length ≤ (h.mem s.arr).length := by
    intro b hb; omega
  let o1 := SM4.cryptBytes c.subkeys (s.read h) false
  have ho1 : o1.length = 16 := rfl
  let h1 := h.store s.arr s.off o1
  let o2 := SM4.cryptBytes c.subkeys (s.read h1) true
  have ho2 : o2.length = 16 := rfl
  refine ⟨h1, h1.store s.arr s.off o2, ?_, ?_, ?_⟩
  · simp only [SM4.Cipher.encrypt, SM4.cryptBlock]
    rw [if_neg (by omega), if_neg (by omega)]
  · simp only [SM4.Cipher.decrypt, SM4.cryptBlock]
    rw [if_neg (by omega), if_neg (by omega)]
  · intro a
    by_cases ha : a = s.arr
    · subst ha
      have hl1 : (h1.mem s.arr).length = (h.mem s.arr).length := by
        rw [store_mem_eq, splice_length _ _ _ (hb _ ho1)]
      have hread : (s.read h1).take 16 = o1 := by
        have := read_store_self h s.arr s.off o1 s.cap (hb _ ho1)
        rw [ho1] at this
        rw [← this]
        simp only [Slice.read, List.take_take]
        congr 1; omega
      have ho2v : o2 = (s.read h).take 16 := by
        have hlen : 16 ≤ (s.read h).length := by simp [Slice.read]; omega
        have e := SM4.crypt_undo c.subkeys (s.read h) hlen false
        have e1 : o2 = SM4.cryptBytes c.subkeys ((s.read h1).take 16) true :=
          (SM4.cryptBytes_take _ _ _).symm
        rw [e1, hread]
        exact e
      apply List.ext_getElem?
      intro i
      rw [store_mem_eq, getElem?_splice _ _ _ (by rw [hl1]; exact hb _ ho2)]
      split
      · rename_i hi
        rw [ho2v]
        simp only [Slice.read, List.take_take]
        rw [List.getElem?_take_of_lt (by omega), List.getElem?_drop]
        congr 1; omega
      · rename_i hi
        rw [store_mem_eq, getElem?_splice _ _ _ (hb _ ho1), if_neg (by omega)]
    · rw [store_mem_ne _ _ _ _ _ ha, store_mem_ne _ _ _ _ _ ha]

/-- **C04** Encryption and decryption compute the GB/T 32907 function. -/
theorem C04_sm4_conforms (key b : Bytes) (hk : key.length = 16) (hb : b.length = 16) :
    sm4Block key b false = .ok (.ok (Spec.SM4.encrypt key b)) ∧
    sm4Block key b true = .ok (.ok (Spec.SM4.decrypt key b)) := by
  rw [sm4Block_eq key b false hk (by omega), sm4Block_eq key b true hk (by omega),
    SM4.crypt_encrypt_eq key b hk (by omega), SM4.crypt_decrypt_eq key b hk (by omega)]
  exact ⟨rfl, rfl⟩

example : (beFix 16 0x0123456789abcdeffedcba9876543210).length = 16 := by simp

end Verif.Props
