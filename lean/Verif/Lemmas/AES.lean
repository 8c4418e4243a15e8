import Verif.Model.AES
import Verif.Lemmas.Slice

namespace Verif
open Verif

theorem xorBytes_length (a b : Bytes) : (xorBytes a b).length = min a.length b.length := by
  simp [xorBytes]

theorem xorBytes_cancel (a b : Bytes) (h : a.length ≤ b.length) : xorBytes (xorBytes a b) b = a := by
  apply List.ext_getElem
  · simp [xorBytes]; omega
  · intro i h1 h2
    simp [xorBytes, BitVec.xor_assoc]

theorem cbcEnc_length (c : BlockCipher) (hc : c.Lawful) (key : Bytes) (n : Nat) :
    ∀ (iv p : Bytes), iv.length = 16 → p.length = 16 * n → (cbcEnc c key n iv p).length = 16 * n := by
  induction n with
  | zero => intros; rfl
  | succ n ih =>
    intro iv p hiv hp
    have hx : (xorBytes (p.take 16) iv).length = 16 := by
      rw [xorBytes_length]; simp; omega
    have ho := hc.enc_length key _ hx
    simp only [cbcEnc, List.length_append, ho]
    rw [ih _ _ ho (by simp; omega)]
    omega

theorem cbcDec_length (c : BlockCipher) (hc : c.Lawful) (key : Bytes) (n : Nat) :
    ∀ (iv p : Bytes), iv.length = 16 → p.length = 16 * n → (cbcDec c key n iv p).length = 16 * n := by
  induction n with
  | zero => intros; rfl
  | succ n ih =>
    intro iv p hiv hp
    have ht : (p.take 16).length = 16 := by simp; omega
    have ho := hc.dec_length key _ ht
    simp only [cbcDec, List.length_append, xorBytes_length, ho, hiv]
    rw [ih _ _ ht (by simp; omega)]
    omega

theorem cbcDec_cbcEnc (c : BlockCipher) (hc : c.Lawful) (key : Bytes) (hk : c.keyOk key = true)
    (n : Nat) : ∀ (iv p : Bytes), iv.length = 16 → p.length = 16 * n →
    cbcDec c key n iv (cbcEnc c key n iv p) = p := by
  induction n with
  | zero => intro iv p _ hp; exact (List.eq_nil_of_length_eq_zero (by omega)).symm
  | succ n ih =>
    intro iv p hiv hp
    have hx : (xorBytes (p.take 16) iv).length = 16 := by
      rw [xorBytes_length]; simp; omega
    have ho := hc.enc_length key _ hx
    simp only [cbcEnc, cbcDec]
    rw [List.take_left' ho, List.drop_left' ho, hc.dec_enc key _ hk hx,
      xorBytes_cancel _ _ (by simp; omega), ih _ _ ho (by simp; omega), List.take_append_drop]

namespace AES

theorem padText_length (len bs : Nat) : (padText len bs).length = bs - len % bs := by
  simp [padText]

theorem unpad_pad_iff (m : Bytes) (bs : Nat) (h0 : 0 < bs) :
    (∃ r, pkcs5UnPadding (m ++ padText m.length bs) = .ok r) ∧
    (pkcs5UnPadding (m ++ padText m.length bs) = .ok m ↔ bs - m.length % bs ≤ 255) := by
  have hmod : m.length % bs < bs := Nat.mod_lt _ h0
  have hl : (m ++ padText m.length bs).length = m.length + (bs - m.length % bs) := by
    simp [padText_length]
  have hlast : (m ++ padText m.length bs).getD ((m ++ padText m.length bs).length - 1) 0
      = BitVec.ofNat 8 (bs - m.length % bs) := by
    rw [List.getD_eq_getElem?_getD, List.getElem?_append_right (by omega), hl]
    simp only [padText, List.getElem?_replicate]
    rw [if_pos (by omega)]
    rfl
  unfold pkcs5UnPadding
  rw [if_neg (by omega), hlast]
  simp only [BitVec.toNat_ofNat]
  have hle : (bs - m.length % bs) % 2 ^ 8 ≤ bs - m.length % bs := Nat.mod_le _ _
  rw [if_neg (by omega)]
  refine ⟨⟨_, rfl⟩, ?_⟩
  constructor
  · intro h
    have := congrArg List.length (Res.ok.inj h)
    rw [List.length_take, hl] at this
    omega
  · intro h
    rw [hl, show m.length + (bs - m.length % bs) - (bs - m.length % bs) % 2 ^ 8 = m.length by omega,
      List.take_left' rfl]

theorem unpad_pad (m : Bytes) (bs : Nat) (h0 : 0 < bs) (h255 : bs ≤ 255) :
    pkcs5UnPadding (m ++ padText m.length bs) = .ok m := by
  have hm : m.length % bs < bs := Nat.mod_lt _ h0
  have hl : (m ++ padText m.length bs).length = m.length + (bs - m.length % bs) := by
    simp [padText_length]
  unfold pkcs5UnPadding
  rw [if_neg (by omega)]
  have hlast : (m ++ padText m.length bs).getD ((m ++ padText m.length bs).length - 1) 0
      = BitVec.ofNat 8 (bs - m.length % bs) := by
    rw [hl, List.getD_eq_getElem?_getD, List.getElem?_append_right (by omega)]
    simp only [padText]
    rw [List.getElem?_replicate, if_pos (by omega)]
    rfl
  rw [hlast]
  have hv : (BitVec.ofNat 8 (bs - m.length % bs)).toNat = bs - m.length % bs := by
    simp; omega
  simp only [hv]
  rw [if_neg (by omega), hl]
  rw [Nat.add_sub_cancel, List.take_left' rfl]

theorem read_append (h : Heap) (s : Slice) (b : Bytes) (hv : s.Valid h) :
    (h.append s b).2.read (h.append s b).1 = s.read h ++ b := by
  obtain ⟨_, hlc, hoc⟩ := hv
  unfold Heap.append
  split
  · rename_i hcap
    have hbound : (s.off + s.len) + b.length ≤ (h.mem s.arr).length := by omega
    simp only [Slice.read, Heap.store, if_true]
    apply List.ext_getElem?
    intro i
    rw [List.getElem?_append]
    have hl : (((h.mem s.arr).drop s.off).take s.len).length = s.len := by simp; omega
    rw [hl]
    by_cases h1 : i < s.len
    · rw [if_pos h1, List.getElem?_take_of_lt (by omega), List.getElem?_drop,
        getElem?_splice _ _ _ hbound, if_neg (by omega), List.getElem?_take_of_lt h1,
        List.getElem?_drop]
    · rw [if_neg h1]
      by_cases h2 : i < s.len + b.length
      · rw [List.getElem?_take_of_lt h2, List.getElem?_drop, getElem?_splice _ _ _ hbound,
          if_pos (by omega)]
        congr 1; omega
      · rw [take_none _ (by omega)]
        exact (List.getElem?_eq_none (by omega)).symm
  · simp only [Heap.alloc, Slice.read, if_true]
    rw [List.drop_zero, List.take_of_length_le (by simp)]

theorem append_len (h : Heap) (s : Slice) (b : Bytes) (hv : s.Valid h) :
    (h.append s b).2.len = s.len + b.length := by
  obtain ⟨_, hlc, hoc⟩ := hv
  unfold Heap.append
  split
  · rfl
  · simp [Heap.alloc, Slice.read]; omega

theorem read_length (h : Heap) (s : Slice) (hv : s.Valid h) : (s.read h).length = s.len := by
  obtain ⟨_, hlc, hoc⟩ := hv
  simp [Slice.read]; omega

end AES
end Verif
