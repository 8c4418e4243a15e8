import Verif.Props.AES
import Verif.Lemmas.CountLists
/-!
# C126: AES ciphertexts are not authenticated
-/
namespace Verif.Props
open Verif Verif.AES

/-- All bytes. -/
def allBytes : Finset (BitVec 8) := (Finset.range 256).image (BitVec.ofNat 8)

theorem mem_allBytes (b : BitVec 8) : b ∈ allBytes :=
  Finset.mem_image.2 ⟨b.toNat, Finset.mem_range.2 b.isLt, by simp⟩

theorem card_allBytes : allBytes.card = 256 := by
  unfold allBytes
  rw [Finset.card_image_of_injOn, Finset.card_range]
  intro a ha b hb h
  simp only [Finset.coe_range, Set.mem_Iio] at ha hb
  have := congrArg BitVec.toNat h
  simp only [BitVec.toNat_ofNat] at this
  omega

theorem finite_bytes (n : Nat) : {l : Bytes | l.length = n}.Finite := by
  have h := ncard_lists allBytes n
  rw [card_allBytes] at h
  have e : {l : Bytes | l.length = n} = {l : Bytes | l.length = n ∧ ∀ d ∈ l, d ∈ allBytes} := by
    ext l
    simp [mem_allBytes]
  rw [e]
  exact Set.finite_of_ncard_ne_zero (by rw [h]; exact pow_ne_zero _ (by decide))

/-- CBC encryption reaches every string of blocks. -/
theorem cbcEnc_surj (c : BlockCipher) (hc : c.Lawful) (key : Bytes) (hk : c.keyOk key = true) (n : Nat) (iv : Bytes)
    (hiv : iv.length = 16) (y : Bytes) (hy : y.length = 16 * n) : ∃ p, p.length = 16 * n ∧ cbcEnc c key n iv p = y := by
  have hinj : Set.InjOn (cbcEnc c key n iv) {l : Bytes | l.length = 16 * n} := by
    intro a ha b hb h
    rw [← cbcDec_cbcEnc c hc key hk n iv a hiv ha, h, cbcDec_cbcEnc c hc key hk n iv b hiv hb]
  have hmaps : Set.MapsTo (cbcEnc c key n iv) {l : Bytes | l.length = 16 * n} {l : Bytes | l.length = 16 * n} :=
    fun a ha => cbcEnc_length c hc key n iv a hiv ha
  have hs := Set.eq_of_subset_of_ncard_le hmaps.image_subset hinj.ncard_image.ge (finite_bytes _)
  have : y ∈ cbcEnc c key n iv '' {l : Bytes | l.length = 16 * n} := by rw [hs]; exact hy
  obtain ⟨p, hp, rfl⟩ := this
  exact ⟨p, hp, rfl⟩

theorem unpad_isOk (s : Bytes) (h : s.length ≠ 0) :
    (pkcs5UnPadding s).isOk = true ↔ (s.getD (s.length - 1) 0).toNat ≤ s.length := by
  unfold pkcs5UnPadding
  rw [if_neg h]
  by_cases h' : (s.getD (s.length - 1) 0).toNat > s.length
  · simp only [if_pos h', Res.isOk, Bool.false_eq_true, false_iff]
    exact Nat.not_le.2 h'
  · simp only [if_neg h', Res.isOk, true_iff]
    exact Nat.le_of_not_gt h'

theorem decrypt_eq_unpad (c : BlockCipher) (key iv ct : Bytes) (hk : c.keyOk key = true) (hiv : iv.length = 16) (n : Nat)
    (h0 : 0 < n) (hl : ct.length = 16 * n) : aesDecrypt c ct key iv = pkcs5UnPadding (cbcDec c key n iv ct) := by
  unfold aesDecrypt
  rw [if_neg (by simp [hk]), if_neg (by omega), if_neg (by omega), if_neg (by omega)]
  congr 2
  omega

/-- The number of byte strings whose last byte is at most their length. -/
theorem ncard_last (k : Nat) : {s : Bytes | s.length = k + 1 ∧ (s.getD (s.length - 1) 0).toNat ≤ k + 1}.ncard =
    min 256 (k + 2) * 256 ^ k := by
  have e : {s : Bytes | s.length = k + 1 ∧ (s.getD (s.length - 1) 0).toNat ≤ k + 1} =
      (fun q : Bytes × BitVec 8 => q.1 ++ [q.2]) '' ({l : Bytes | l.length = k ∧ ∀ d ∈ l, d ∈ allBytes} ×ˢ
        {b : BitVec 8 | b.toNat ≤ k + 1}) := by
    ext s
    simp only [Set.mem_ofPred_eq, Set.mem_image, Set.mem_prod, Prod.exists, mem_allBytes, implies_true, and_true]
    constructor
    · rintro ⟨h1, h2⟩
      have hne : s ≠ [] := by intro h; simp [h] at h1
      refine ⟨s.dropLast, s.getLast hne, ⟨by simp [h1], ?_⟩, List.dropLast_append_getLast hne⟩
      rw [List.getLast_eq_getElem hne]
      rwa [List.getD_eq_getElem?_getD, List.getElem?_eq_getElem (by omega), Option.getD_some] at h2
    · rintro ⟨l, b, ⟨h1, h2⟩, rfl⟩
      refine ⟨by simp [h1], ?_⟩
      simp [List.getD, h1, h2]
  have hb : {b : BitVec 8 | b.toNat ≤ k + 1}.ncard = min 256 (k + 2) := by
    have : {b : BitVec 8 | b.toNat ≤ k + 1}.ncard = ((Finset.range (min 256 (k + 2)) : Finset Nat) : Set Nat).ncard := by
      refine Set.ncard_congr (fun b _ => b.toNat) ?_ ?_ ?_
      · intro b hb
        have := b.isLt
        simp only [Set.mem_ofPred_eq, Finset.coe_range, Set.mem_Iio] at hb ⊢
        omega
      · intro a b _ _ h; exact BitVec.eq_of_toNat_eq h
      · intro v hv
        simp only [Finset.coe_range, Set.mem_Iio] at hv
        refine ⟨BitVec.ofNat 8 v, ?_, ?_⟩
        · simp only [Set.mem_ofPred_eq, BitVec.toNat_ofNat]; omega
        · simp only [BitVec.toNat_ofNat]; omega
    rw [this, Set.ncard_coe_finset, Finset.card_range]
  rw [e, Set.ncard_image_of_injective, Set.ncard_prod, ncard_lists, hb, card_allBytes, mul_comm]
  · rintro ⟨l, b⟩ ⟨l', b'⟩ h
    have := List.append_inj' h rfl
    simpa using this

/-- **C126 (partial)** How many ciphertexts of `n` blocks `AesDecrypt` accepts, for every key and every iv: the last byte of
what CBC gives has to be at most `16 n`, so a string chosen at random is accepted with the probability
`min(256, 16 n + 1) / 256`. Missing: that only what `AesEncrypt` made is accepted; it is false, see
`C126_long_accepted` and `C126_changed_accepted`. -/
theorem C126_accepted_partial (c : BlockCipher) (hc : c.Lawful) (key iv : Bytes)
    (hk : key.length = 16 ∨ key.length = 24 ∨ key.length = 32) (hiv : iv.length = 16) (n : Nat) (h0 : 0 < n) :
    {ct : Bytes | ct.length = 16 * n ∧ (aesDecrypt c ct key iv).isOk = true}.ncard =
      min 256 (16 * n + 1) * 256 ^ (16 * n - 1) := by
  have hk' := (hc.keyOk_iff key).2 hk
  obtain ⟨k, hkk⟩ : ∃ k, 16 * n = k + 1 := ⟨16 * n - 1, by omega⟩
  have hcount := ncard_last k
  rw [show 16 * n + 1 = k + 2 by omega, show 16 * n - 1 = k by omega, ← hcount]
  symm
  refine Set.ncard_congr (fun s _ => cbcEnc c key n iv s) ?_ ?_ ?_
  · intro s hs
    have hl : s.length = 16 * n := by rw [hkk]; exact hs.1
    have hl' := cbcEnc_length c hc key n iv s hiv hl
    refine ⟨hl', ?_⟩
    rw [decrypt_eq_unpad c key iv _ hk' hiv n h0 hl', cbcDec_cbcEnc c hc key hk' n iv s hiv hl, unpad_isOk _ (by omega)]
    exact hs.2.trans_eq hs.1.symm
  · intro a b ha hb h
    rw [← cbcDec_cbcEnc c hc key hk' n iv a hiv (by rw [hkk]; exact ha.1), h,
      cbcDec_cbcEnc c hc key hk' n iv b hiv (by rw [hkk]; exact hb.1)]
  · rintro ct ⟨hl, hok⟩
    obtain ⟨s, hs, rfl⟩ := cbcEnc_surj c hc key hk' n iv hiv ct hl
    refine ⟨s, ⟨by omega, ?_⟩, rfl⟩
    rw [decrypt_eq_unpad c key iv _ hk' hiv n h0 hl, cbcDec_cbcEnc c hc key hk' n iv s hiv hs, unpad_isOk _ (by omega)] at hok
    omega

/-- **C126** is false of the code: a ciphertext of 16 blocks or more is accepted whatever it is. -/
theorem C126_long_accepted (c : BlockCipher) (hc : c.Lawful) (key iv ct : Bytes)
    (hk : key.length = 16 ∨ key.length = 24 ∨ key.length = 32) (hiv : iv.length = 16) (h16 : ct.length % 16 = 0)
    (hl : 256 ≤ ct.length) : (aesDecrypt c ct key iv).isOk = true := by
  have hk' := (hc.keyOk_iff key).2 hk
  have hn : ct.length = 16 * (ct.length / 16) := by omega
  have hd := cbcDec_length c hc key _ iv ct hiv hn
  rw [decrypt_eq_unpad c key iv _ hk' hiv _ (by omega) hn, unpad_isOk _ (by omega)]
  have := ((cbcDec c key (ct.length / 16) iv ct).getD ((cbcDec c key (ct.length / 16) iv ct).length - 1) 0).isLt
  omega

/-- Changing the iv changes the first block only, and in the same places. -/
theorem cbcDec_iv (c : BlockCipher) (hc : c.Lawful) (key iv d ct : Bytes) (n : Nat) (hiv : iv.length = 16)
    (hl : ct.length = 16 * (n + 1)) :
    cbcDec c key (n + 1) (xorBytes iv d) ct =
      xorBytes ((cbcDec c key (n + 1) iv ct).take 16) d ++ (cbcDec c key (n + 1) iv ct).drop 16 := by
  have ht : (ct.take 16).length = 16 := by simp; omega
  have ho := hc.dec_length key _ ht
  have hx : (xorBytes (c.dec key (ct.take 16)) iv).length = 16 := by rw [xorBytes_length]; omega
  simp only [cbcDec]
  rw [List.take_left' hx, List.drop_left' hx]
  congr 1
  apply List.ext_getElem
  · simp [xorBytes_length]
  · intro i h1 h2
    simp [xorBytes, BitVec.xor_assoc]

/-- What `AesEncrypt` returns. -/
theorem encrypt_read (c : BlockCipher) (h : Heap) (pt : Slice) (hv : pt.Valid h) (key iv : Bytes)
    (hk : c.keyOk key = true) (hiv : iv.length = 16) :
    ∃ h' ct, aesEncrypt c h pt key iv = .ok (h', ct) ∧
      ct.read h' = cbcEnc c key (pt.len / 16 + 1) iv (pt.read h ++ padText pt.len 16) := by
  have hlen := append_len h pt (padText pt.len 16) hv
  have hread := read_append h pt (padText pt.len 16) hv
  have hpl := padText_length pt.len 16
  have henc : aesEncrypt c h pt key iv = .ok ((h.append pt (padText pt.len 16)).1.alloc
      (cbcEnc c key ((h.append pt (padText pt.len 16)).2.len / 16) iv
        ((h.append pt (padText pt.len 16)).2.read (h.append pt (padText pt.len 16)).1))) := by
    unfold aesEncrypt pkcs5Padding
    rw [if_neg (by simp [hk]), if_neg (by omega), if_neg (by omega), Res.bind_ok]
    simp only
    rw [if_neg (by omega)]
    rfl
  refine ⟨_, _, henc, ?_⟩
  have hr : ∀ (g : Heap) (b : Bytes), (g.alloc b).2.read (g.alloc b).1 = b := by
    intro g b; simp [Heap.alloc, Slice.read]
  refine (hr _ _).trans ?_
  rw [hread, hlen, hpl]
  congr 1
  omega

/-- **C126** is false of the code, for every key and every message of at least one block: whoever can change the iv changes
the first block of the message as they like, without knowing the key; the ciphertext is accepted. -/
theorem C126_changed_accepted (c : BlockCipher) (hc : c.Lawful) (h : Heap) (pt : Slice) (hv : pt.Valid h)
    (key iv d : Bytes) (hk : key.length = 16 ∨ key.length = 24 ∨ key.length = 32) (hiv : iv.length = 16)
    (hd : d.length = 16) (hl : 16 ≤ pt.len) :
    ∃ h' ct, aesEncrypt c h pt key iv = .ok (h', ct) ∧
      aesDecrypt c (ct.read h') key (xorBytes iv d) =
        .ok (xorBytes ((pt.read h).take 16) d ++ (pt.read h).drop 16) := by
  have hk' := (hc.keyOk_iff key).2 hk
  obtain ⟨h', ct, h1, h2⟩ := encrypt_read c h pt hv key iv hk' hiv
  refine ⟨h', ct, h1, ?_⟩
  have hrl := read_length h pt hv
  have hpl := padText_length pt.len 16
  have hn : (pt.read h ++ padText pt.len 16).length = 16 * (pt.len / 16 + 1) := by
    rw [List.length_append, hrl, hpl]; omega
  have hcl := cbcEnc_length c hc key _ iv _ hiv hn
  rw [h2, decrypt_eq_unpad c key _ _ hk' (by rw [xorBytes_length]; omega) _ (by omega) hcl,
    cbcDec_iv c hc key iv d _ _ hiv hcl, cbcDec_cbcEnc c hc key hk' _ iv _ hiv hn,
    List.take_append_of_le_length (by omega), List.drop_append_of_le_length (by omega), ← List.append_assoc]
  have hl' : (xorBytes ((pt.read h).take 16) d ++ (pt.read h).drop 16).length = pt.len := by
    rw [List.length_append, xorBytes_length, List.length_take, List.length_drop]; omega
  rw [← hl']
  exact unpad_pad _ 16 (by omega) (by omega)

/-! The hypotheses are met, with SM4 as the block cipher. -/

/-- Of the strings of one block 17 in 256 are accepted. -/
example : {ct : Bytes | ct.length = 16 ∧ (aesDecrypt sm4AsBlockCipher ct (zeros 16) (zeros 16)).isOk = true}.ncard =
    17 * 256 ^ 15 :=
  C126_accepted_partial sm4AsBlockCipher sm4AsBlockCipher_lawful (zeros 16) (zeros 16) (.inl rfl) rfl 1 (by omega)

example : (aesDecrypt sm4AsBlockCipher (zeros 256) (zeros 16) (zeros 16)).isOk = true :=
  C126_long_accepted sm4AsBlockCipher sm4AsBlockCipher_lawful _ _ _ (.inl rfl) rfl (by simp) (by simp)

/-- Twenty zero bytes are received as a one followed by nineteen zeros. -/
example : ∃ h' ct, aesEncrypt sm4AsBlockCipher ⟨fun _ => zeros 40, 1⟩ ⟨0, 0, 20, 20⟩ (zeros 16) (zeros 16) = .ok (h', ct) ∧
    aesDecrypt sm4AsBlockCipher (ct.read h') (zeros 16) (xorBytes (zeros 16) (1 :: zeros 15)) = .ok (1 :: zeros 19) :=
  C126_changed_accepted sm4AsBlockCipher sm4AsBlockCipher_lawful ⟨fun _ => zeros 40, 1⟩ ⟨0, 0, 20, 20⟩
    (by simp [Slice.Valid]) (zeros 16) (zeros 16) (1 :: zeros 15) (.inl rfl) rfl rfl (by decide)

end Verif.Props
