import Verif.Model.GoAES
import Verif.Props.AES
import Verif.Props.GCM
/-!
# C146: AES with the library code included

The properties of `AesEncrypt`, `AesDecrypt` and of protected keys take the block cipher as given (`BlockCipher.Lawful`). Here it
is AES as FIPS 197 defines it (`Model/GoAES`).
-/
namespace Verif.GoAES

/-! ## The S-box, as FIPS 197 defines it -/

/-- The product in the field of 256 elements, over the lowest `n` bits of `c`. -/
def fieldMul : Nat → Byte → Byte → Byte
  | 0, _, _ => 0
  | n + 1, c, b => (if c.getLsbD 0 then b else 0) ^^^ fieldMul n (c >>> 1) (xtime b)

/-- The affine map of the S-box. -/
def affine (b : Byte) : Byte :=
  b ^^^ b.rotateLeft 1 ^^^ b.rotateLeft 2 ^^^ b.rotateLeft 3 ^^^ b.rotateLeft 4 ^^^ 0x63

/-- The inverse of the affine map. -/
def invAffine (b : Byte) : Byte := b.rotateLeft 1 ^^^ b.rotateLeft 3 ^^^ b.rotateLeft 6 ^^^ 0x05

theorem sbox_spec : ∀ b : Byte, sbox b = affine (invAffine (sbox b)) ∧
    (b = 0 ∧ invAffine (sbox b) = 0 ∨ fieldMul 8 b (invAffine (sbox b)) = 1) := by decide +kernel

theorem sbox_inv : ∀ b : Byte, invSbox (sbox b) = b := by decide +kernel

theorem inv_sbox : ∀ b : Byte, sbox (invSbox b) = b := by decide +kernel

theorem xtime_xor (a b : Byte) : xtime (a ^^^ b) = xtime a ^^^ xtime b := by
  unfold xtime
  rw [BitVec.shiftLeft_xor_distrib, BitVec.msb_xor]
  generalize a <<< 1 = x
  generalize b <<< 1 = y
  cases a.msb <;> cases b.msb
  · simp
  · simp [BitVec.xor_assoc]
  · simp only [Bool.true_bne, Bool.not_false, if_true, Bool.false_eq_true, if_false]
    ac_rfl
  · simp only [bne_self_eq_false, if_true, Bool.false_eq_true, if_false]
    rw [show x ^^^ 27 ^^^ (y ^^^ 27) = x ^^^ y ^^^ (27 ^^^ 27) by ac_rfl]
    rfl

theorem mul_xor (c : Nat) (a b : Byte) : mul c (a ^^^ b) = mul c a ^^^ mul c b := by
  unfold mul
  simp only [xtime_xor]
  cases c.testBit 0 <;> cases c.testBit 1 <;> cases c.testBit 2 <;> cases c.testBit 3 <;>
    simp only [Bool.false_eq_true, if_false, if_true] <;> ac_rfl

theorem mix1 : ∀ a : Byte, mul 14 (mul 2 a) ^^^ mul 11 a ^^^ mul 13 a ^^^ mul 9 (mul 3 a) = a := by decide +kernel
theorem mix2 : ∀ a : Byte, mul 14 (mul 3 a) ^^^ mul 11 (mul 2 a) ^^^ mul 13 a ^^^ mul 9 a = 0 := by decide +kernel
theorem mix3 : ∀ a : Byte, mul 14 a ^^^ mul 11 (mul 3 a) ^^^ mul 13 (mul 2 a) ^^^ mul 9 a = 0 := by decide +kernel
theorem mix4 : ∀ a : Byte, mul 14 a ^^^ mul 11 a ^^^ mul 13 (mul 3 a) ^^^ mul 9 (mul 2 a) = 0 := by decide +kernel

/-- The two matrices of the column mixing are inverse to each other. -/
theorem mix_col (a b c d : Byte) :
    mul 14 (mul 2 a ^^^ mul 3 b ^^^ c ^^^ d) ^^^ mul 11 (mul 2 b ^^^ mul 3 c ^^^ d ^^^ a) ^^^
      mul 13 (mul 2 c ^^^ mul 3 d ^^^ a ^^^ b) ^^^ mul 9 (mul 2 d ^^^ mul 3 a ^^^ b ^^^ c) = a := by
  simp only [mul_xor]
  have h : a = (mul 14 (mul 2 a) ^^^ mul 11 a ^^^ mul 13 a ^^^ mul 9 (mul 3 a)) ^^^
      (mul 14 (mul 3 b) ^^^ mul 11 (mul 2 b) ^^^ mul 13 b ^^^ mul 9 b) ^^^
      (mul 14 c ^^^ mul 11 (mul 3 c) ^^^ mul 13 (mul 2 c) ^^^ mul 9 c) ^^^
      (mul 14 d ^^^ mul 11 d ^^^ mul 13 (mul 3 d) ^^^ mul 9 (mul 2 d)) := by
    rw [mix1, mix2, mix3, mix4]; simp
  conv_rhs => rw [h]
  ac_rfl

theorem state_length (f : Nat → Byte) : (state f).length = 16 := by simp [state]

theorem state_getD (f : Nat → Byte) {i : Nat} (h : i < 16) : (state f).getD i 0 = f i := by
  unfold state
  rw [List.getD_eq_getElem?_getD, List.getElem?_map, List.getElem?_range h]
  rfl

theorem state_congr {f g : Nat → Byte} (h : ∀ i < 16, f i = g i) : state f = state g := by
  unfold state
  exact List.map_congr_left fun i hi => h i (List.mem_range.1 hi)

theorem state_self {s : Bytes} (h : s.length = 16) : state (fun i => s.getD i 0) = s := by
  apply List.ext_getElem
  · rw [state_length, h]
  · intro i h1 h2
    rw [state_length] at h1
    simp [state, h2]

theorem addKey_addKey (s k : Bytes) : addKey (addKey s k) k = state fun i => s.getD i 0 := by
  refine state_congr fun i hi => ?_
  unfold addKey
  rw [state_getD _ hi, BitVec.xor_assoc]; simp

theorem invSub_sub (s : Bytes) : invSubBytes (subBytes s) = state fun i => s.getD i 0 := by
  refine state_congr fun i hi => ?_
  unfold subBytes
  rw [state_getD _ hi, sbox_inv]

theorem invShift_shift (s : Bytes) : invShiftRows (shiftRows s) = state fun i => s.getD i 0 := by
  refine state_congr fun i hi => ?_
  unfold shiftRows
  rw [state_getD _ (by omega)]
  congr 1
  omega

theorem at_mix (s : Bytes) (c r : Nat) (hc : c < 4) : at' (mixColumns s) c r =
    mul 2 (at' s c r) ^^^ mul 3 (at' s c (r + 1)) ^^^ at' s c (r + 2) ^^^ at' s c (r + 3) := by
  conv_lhs => unfold at' mixColumns
  rw [state_getD _ (by omega)]
  simp only [at']
  rw [show (4 * c + r % 4) / 4 = c by omega, show ((4 * c + r % 4) % 4) % 4 = r % 4 by omega,
    show ((4 * c + r % 4) % 4 + 1) % 4 = (r + 1) % 4 by omega, show ((4 * c + r % 4) % 4 + 2) % 4 = (r + 2) % 4 by omega,
    show ((4 * c + r % 4) % 4 + 3) % 4 = (r + 3) % 4 by omega]

theorem at_add4 (s : Bytes) (c r : Nat) : at' s c (r + 4) = at' s c r := by
  unfold at'
  rw [Nat.add_mod_right]

theorem invMix_mix (s : Bytes) : invMixColumns (mixColumns s) = state fun i => s.getD i 0 := by
  refine state_congr fun i hi => ?_
  simp only
  rw [at_mix _ _ _ (by omega), at_mix _ _ _ (by omega), at_mix _ _ _ (by omega), at_mix _ _ _ (by omega)]
  generalize hr : i % 4 = r
  have e4 := at_add4 s (i / 4) r
  have e5 := at_add4 s (i / 4) (r + 1)
  have e6 := at_add4 s (i / 4) (r + 2)
  rw [show r + 1 + 4 = r + 2 + 3 by omega] at e5
  rw [show r + 2 + 4 = r + 3 + 3 by omega] at e6
  rw [show r + 1 + 1 = r + 2 by omega, show r + 1 + 2 = r + 3 by omega, show r + 1 + 3 = r + 4 by omega,
    show r + 2 + 1 = r + 3 by omega, show r + 2 + 2 = r + 4 by omega, show r + 3 + 1 = r + 4 by omega,
    show r + 3 + 2 = r + 2 + 3 by omega, e4, e5, e6, mix_col]
  unfold at'
  congr 1
  omega

theorem getD_state (s : Bytes) : (fun i => (state fun j => s.getD j 0).getD i 0) = fun i => if i < 16 then s.getD i 0 else 0 := by
  funext i
  split
  · rename_i h; rw [state_getD _ h]
  · rename_i h
    rw [List.getD_eq_getElem?_getD, List.getElem?_eq_none (by rw [state_length]; omega)]; rfl

theorem addKey_length (s k : Bytes) : (addKey s k).length = 16 := state_length _
theorem round_length (s k : Bytes) : (round s k).length = 16 := state_length _

/-- What the inverse cipher undoes, round by round. -/
theorem rounds_inv (k0 s0 : Bytes) (m : List Bytes) :
    m.reverse.foldl invRound (shiftRows (subBytes (m.foldl round (addKey s0 k0)))) =
      shiftRows (subBytes (addKey s0 k0)) := by
  induction m using List.reverseRecOn with
  | nil => rfl
  | append_singleton m k ih =>
    have hsub : ∀ s, s.length = 16 → invSubBytes (invShiftRows (shiftRows (subBytes s))) = s := by
      intro s hs
      rw [invShift_shift, state_self (by exact state_length _), invSub_sub, state_self hs]
    rw [List.foldl_append, List.reverse_append, List.reverse_singleton, List.singleton_append, List.foldl_cons]
    simp only [List.foldl_cons, List.foldl_nil]
    conv_lhs => arg 2; rw [invRound, hsub _ (round_length _ _), round, addKey_addKey, state_self (by exact state_length _), invMix_mix,
      state_self (by exact state_length _)]
    exact ih

theorem inv_cipher (k0 kn : Bytes) (m : List Bytes) (s : Bytes) (hs : s.length = 16) :
    invCipher (k0 :: (m ++ [kn])) (cipher (k0 :: (m ++ [kn])) s) = s := by
  unfold invCipher cipher
  simp only [List.reverse_cons, List.reverse_append, List.reverse_nil, List.nil_append, List.cons_append,
    List.dropLast_concat, List.getLast?_concat, Option.getD_some]
  rw [addKey_addKey, state_self (by exact state_length _), rounds_inv, invShift_shift, state_self (by exact state_length _), invSub_sub,
    state_self (addKey_length _ _), addKey_addKey, state_self hs]

theorem roundKeys_shape (key : Bytes) : ∃ k0 m kn, roundKeys key = k0 :: (m ++ [kn]) := by
  have hl : (roundKeys key).length = key.length / 4 + 7 := by simp [roundKeys]
  generalize roundKeys key = l at hl
  cases l with
  | nil => simp at hl
  | cons k0 l =>
    rcases List.eq_nil_or_concat l with rfl | ⟨m, kn, rfl⟩
    · simp at hl
    · exact ⟨k0, m, kn, by simp⟩

end Verif.GoAES

namespace Verif.Props
open Verif.GoAES

/-- **C146** The S-box is the one of the standard: inverse in the field of 256 elements, then the affine map. -/
theorem C146_sbox (b : Byte) : ∃ c : Byte, sbox b = affine c ∧ (b = 0 ∧ c = 0 ∨ fieldMul 8 b c = 1) := ⟨_, sbox_spec b⟩

/-- **C146** AES meets what the properties of `AesEncrypt`, `AesDecrypt` and protected keys assume of the block cipher. -/
theorem C146_lawful : aes.Lawful where
  keyOk_iff k := by simp [aes, or_assoc]
  enc_length k b _ := by
    obtain ⟨k0, m, kn, e⟩ := roundKeys_shape k
    show (cipher (roundKeys k) b).length = 16
    rw [e]; exact addKey_length _ _
  dec_length k b _ := by
    show (invCipher (roundKeys k) b).length = 16
    unfold invCipher
    split
    · exact state_length _
    · exact addKey_length _ _
  dec_enc k b _ hb := by
    obtain ⟨k0, m, kn, e⟩ := roundKeys_shape k
    show invCipher (roundKeys k) (cipher (roundKeys k) b) = b
    rw [e]; exact inv_cipher k0 kn m b hb

/-- **C146** `AesDecrypt` undoes `AesEncrypt`, with AES and CBC written out. -/
theorem C146_roundtrip (h : Heap) (pt : Slice) (hv : pt.Valid h) (key iv : Bytes)
    (hk : key.length = 16 ∨ key.length = 24 ∨ key.length = 32) (hiv : iv.length = 16) :
    ∃ h' ct, AES.aesEncrypt aes h pt key iv = .ok (h', ct) ∧
      AES.aesDecrypt aes (ct.read h') key iv = .ok (pt.read h) :=
  C06_aes_roundtrip aes C146_lawful h pt hv key iv hk hiv

theorem aes_blocks : Blocks16 aes.enc := by
  intro k b
  obtain ⟨k0, m, kn, e⟩ := roundKeys_shape k
  show (cipher (roundKeys k) b).length = 16
  rw [e]; exact addKey_length _ _

/-- The external code of protected keys with AES, GCM and CTR written out. -/
def withAES (X : Keypair.ProtExt) : Keypair.ProtExt :=
  { withGCM X aes.enc with ctrStream := fun k => GCM.ctrStream (aes.enc k) }

/-- **C146** With AES, GCM and CTR written out, only the length of what scrypt returns remains of those that the properties of protected keys
assume. -/
theorem C146_protected (X : Keypair.ProtExt)
    (h1 : ∀ pwd salt N R P L d, X.scrypt pwd salt N R P L = .ok d → (d.length : Int) = L) : (withAES X).Lawful where
  scrypt_length := h1
  gcm_open_iff := (C144_lawful { X with ctrStream := fun _ _ n => zeros n, gcmSeal := refProt'.gcmSeal, gcmOpen := refProt'.gcmOpen }
    ⟨h1, refProt_lawful.gcm_open_iff, fun _ _ n => zeros_length n⟩ aes.enc aes_blocks).gcm_open_iff
  ctr_length k iv n := by
    show (GCM.ctrStream (aes.enc k) iv n).length = n
    unfold GCM.ctrStream
    rw [List.length_take, List.length_flatMap]
    have : ((List.range ((n + 15) / 16)).map fun i => (aes.enc k (beFix 16 (natOfBytes iv + i))).length).sum =
        (n + 15) / 16 * 16 := by
      rw [List.map_congr_left (g := fun _ => 16) (fun i _ => aes_blocks _ _)]
      simp
    rw [this]
    omega

/-- `C146_protected` applies to the instance used in other examples. -/
example : (withAES refProt').Lawful := C146_protected _ refProt_lawful.scrypt_length

/-! ## Known answers -/

/-- FIPS 197, appendix C: keys of 16, 24 and 32 bytes. -/
example : aes.enc (beFix 16 0x000102030405060708090a0b0c0d0e0f) (beFix 16 0x00112233445566778899aabbccddeeff) =
    beFix 16 0x69c4e0d86a7b0430d8cdb78070b4c55a := by decide +kernel

example : aes.enc (beFix 24 0x000102030405060708090a0b0c0d0e0f1011121314151617) (beFix 16 0x00112233445566778899aabbccddeeff) =
    beFix 16 0xdda97ca4864cdfe06eaf70a0ec0d7191 := by decide +kernel

example : aes.enc (beFix 32 0x000102030405060708090a0b0c0d0e0f101112131415161718191a1b1c1d1e1f)
    (beFix 16 0x00112233445566778899aabbccddeeff) = beFix 16 0x8ea2b7ca516745bfeafc49904b496089 := by decide +kernel

/-- Test cases 13 and 14 of the GCM specification: AES-256, key and nonce 0, no text and a block of zeros. -/
example : GCM.sealText (aes.enc (zeros 32)) (zeros 12) [] [] = beFix 16 0x530f8afbc74536b9a963b4f1c4cb738b := by decide +kernel

example : GCM.sealText (aes.enc (zeros 32)) (zeros 12) (zeros 16) [] =
    beFix 16 0xcea7403d4d606b6e074ec5d3baf39d18 ++ beFix 16 0xd0d1c8a799996bf0265b98b5d48ab919 := by decide +kernel

/-- NIST SP 800-38A, F.5.5: AES-256 in counter mode, the first block. -/
example : xorBytes (beFix 16 0x6bc1bee22e409f96e93d7e117393172a)
    (GCM.ctrStream (aes.enc (beFix 32 0x603deb1015ca71be2b73aef0857d77811f352c073b6108d72d9810a30914dff4))
      (beFix 16 0xf0f1f2f3f4f5f6f7f8f9fafbfcfdfeff) 16) = beFix 16 0x601ec313775789a5b7a7f504bbf3d228 := by decide +kernel

end Verif.Props
