import Verif.Lemmas.AES
import Verif.Props.SM4
/-!
# C06 - C09: AES-CBC with PKCS5 padding

crypto/aes is a parameter `c` with the laws `BlockCipher.Lawful`.
-/
namespace Verif.Props
open Verif AES

/-- The laws assumed of crypto/aes are satisfiable: SM4 on the first 16 key bytes. -/
def sm4AsBlockCipher : BlockCipher where
  keyOk k := k.length = 16 || k.length = 24 || k.length = 32
  enc k b := SM4.cryptBytes (SM4.generateSubkeys (k.take 16)) b false
  dec k b := SM4.cryptBytes (SM4.generateSubkeys (k.take 16)) b true

theorem sm4AsBlockCipher_lawful : sm4AsBlockCipher.Lawful where
  keyOk_iff k := by simp [sm4AsBlockCipher, or_assoc]
  enc_length _ _ _ := rfl
  dec_length _ _ _ := rfl
  dec_enc k b _ hb := by
    have := SM4.crypt_undo (SM4.generateSubkeys (k.take 16)) b (by omega) false
    rw [List.take_of_length_le (show b.length ≤ 16 by omega), Bool.not_false] at this
    simpa only [sm4AsBlockCipher] using this

/-- **C06** `AesDecrypt(AesEncrypt(m, key, iv), key, iv) = m` for every plaintext slice (any length,
capacity and position in memory), every key crypto/aes accepts and every 16-byte iv. -/
theorem C06_aes_roundtrip (c : BlockCipher) (hc : c.Lawful) (h : Heap) (pt : Slice)
    (hv : pt.Valid h) (key iv : Bytes) (hk : key.length = 16 ∨ key.length = 24 ∨ key.length = 32)
    (hiv : iv.length = 16) :
    ∃ h' ct, aesEncrypt c h pt key iv = .ok (h', ct) ∧
      aesDecrypt c (ct.read h') key iv = .ok (pt.read h) := by
  have hkok := (hc.keyOk_iff key).2 hk
  have hlen := append_len h pt (padText pt.len 16) hv
  have hread := read_append h pt (padText pt.len 16) hv
  have hrl := read_length h pt hv
  have hmod : pt.len % 16 < 16 := Nat.mod_lt _ (by omega)
  have hpl := padText_length pt.len 16
  have henc : aesEncrypt c h pt key iv = .ok ((h.append pt (padText pt.len 16)).1.alloc
      (cbcEnc c key ((h.append pt (padText pt.len 16)).2.len / 16) iv
        ((h.append pt (padText pt.len 16)).2.read (h.append pt (padText pt.len 16)).1))) := by
    unfold aesEncrypt pkcs5Padding
    rw [if_neg (by simp [hkok]), if_neg (by omega), if_neg (by omega), Res.bind_ok]
    simp only
    rw [if_neg (by omega)]
    rfl
  refine ⟨_, _, henc, ?_⟩
  · rw [hread, hlen, hpl]
    have hn : 16 * ((pt.len + (16 - pt.len % 16)) / 16) = (pt.read h ++ padText pt.len 16).length := by
      rw [List.length_append, hrl, hpl]; omega
    have hclen := cbcEnc_length c hc key _ iv _ hiv hn.symm
    have hr : ∀ (g : Heap) (b : Bytes), (g.alloc b).2.read (g.alloc b).1 = b := by
      intro g b; simp [Heap.alloc, Slice.read]
    refine Eq.trans (congrArg (fun x => aesDecrypt c x key iv) (hr _ _)) ?_
    unfold aesDecrypt
    rw [if_neg (by simp [hkok]), hclen, if_neg (by omega), if_neg (by omega), if_neg (by omega),
      Nat.mul_div_cancel_left _ (by omega), cbcDec_cbcEnc c hc key hkok _ iv _ hiv hn.symm, ← hrl]
    exact unpad_pad (pt.read h) 16 (by omega) (by omega)

/-- Non-vacuity: a 5-byte plaintext at offset 2 of a 40-byte array, with spare capacity. -/
example : (⟨0, 2, 5, 30⟩ : Slice).Valid ⟨fun _ => zeros 40, 1⟩ ∧ (zeros 24).length = 24 ∧
    (zeros 16).length = 16 := by simp [Slice.Valid]

/-- **C06** (padding alone) Unpadding inverts padding for every block size from 1 to 255. -/
theorem C06_unpad_pad (m : Bytes) (bs : Nat) (h0 : 0 < bs) (h255 : bs ≤ 255) :
    pkcs5UnPadding (m ++ padText m.length bs) = .ok m := unpad_pad m bs h0 h255

/-- **C06** (padding alone) `PKCS5Padding` for every slice and every block size, negative ones included: it panics
exactly when the block size is not positive. Otherwise it returns the bytes of the slice followed by 1 to `bs` bytes
up to a multiple of the block size, and `PKCS5UnPadding` of that is the original exactly when at most 255 bytes were
appended. -/
theorem C06_padding (h : Heap) (src : Slice) (hv : src.Valid h) (bs : Int) :
    ((∃ m, pkcs5Padding h src bs = .panic m) ↔ bs ≤ 0) ∧
    (0 < bs → ∃ h' s', pkcs5Padding h src bs = .ok (h', s') ∧ ∃ pad : Bytes,
      s'.read h' = src.read h ++ pad ∧ 1 ≤ pad.length ∧ pad.length ≤ bs.toNat ∧ s'.len % bs.toNat = 0 ∧
      (pkcs5UnPadding (s'.read h') = .ok (src.read h) ↔ pad.length ≤ 255)) := by
  unfold pkcs5Padding
  constructor
  · by_cases h0 : bs = 0
    · subst h0; simp
    · by_cases h1 : bs < 0
      · rw [if_neg h0, if_pos h1]; simp; omega
      · rw [if_neg h0, if_neg h1]; simp; omega
  · intro hp
    obtain ⟨n, rfl⟩ := Int.eq_ofNat_of_zero_le (Int.le_of_lt hp)
    rw [if_neg (by omega), if_neg (by omega)]
    have hn : 0 < n := by omega
    have hmod : src.len % n < n := Nat.mod_lt _ hn
    have hpl := padText_length src.len n
    have hread := read_append h src (padText src.len n) hv
    refine ⟨(h.append src (padText src.len n)).1, (h.append src (padText src.len n)).2, rfl,
      padText src.len n, hread, ?_, ?_, ?_, ?_⟩
    · rw [hpl]; omega
    · rw [hpl]; simp
    · simp only [Int.toNat_natCast]
      rw [append_len h src _ hv, hpl]
      rw [show src.len + (n - src.len % n) = n * (src.len / n + 1) by
        have := Nat.div_add_mod src.len n
        rw [Nat.mul_add, Nat.mul_one]
        omega]
      exact Nat.mul_mod_right _ _
    · rw [hread, hpl, ← read_length h src hv]
      exact (unpad_pad_iff _ n hn).2

/-- The bound 255 is sharp: with block size 256 the pad byte wraps to 0 and nothing is stripped. -/
theorem C06_unpad_pad_256_fails : pkcs5UnPadding ([] ++ padText 0 256) ≠ .ok [] := by
  decide +kernel

/-- **C07** With a 16-byte iv, `AesDecrypt` never panics: every ciphertext and key gives a value or an
error; and it gives an error for an invalid key size and for any length that is not a positive
multiple of 16. -/
theorem C07_aesDecrypt_rejects (c : BlockCipher) (hc : c.Lawful) (ct key iv : Bytes)
    (hiv : iv.length = 16) :
    (aesDecrypt c ct key iv).isPanic = false ∧
    (¬(key.length = 16 ∨ key.length = 24 ∨ key.length = 32) →
      (aesDecrypt c ct key iv).isErr = true) ∧
    (ct.length = 0 ∨ ct.length % 16 ≠ 0 → (aesDecrypt c ct key iv).isErr = true) := by
  have hko := hc.keyOk_iff key
  unfold aesDecrypt
  by_cases hk : c.keyOk key = false
  · rw [if_pos hk]; simp
  · have hk' : c.keyOk key = true := by simpa using hk
    rw [if_neg hk]
    by_cases h1 : ct.length < 16
    · rw [if_pos h1]; simp
    · rw [if_neg h1]
      by_cases h2 : ct.length % 16 ≠ 0
      · rw [if_pos h2]; simp
      · rw [if_neg h2, if_neg (by omega)]
        have hl := cbcDec_length c hc key (ct.length / 16) iv ct hiv (by omega)
        refine ⟨?_, fun h => absurd (hko.1 hk') h, fun h => by omega⟩
        unfold pkcs5UnPadding
        rw [if_neg (by omega)]
        simp only
        split <;> rfl

example : ¬((zeros 15).length = 16 ∨ (zeros 15).length = 24 ∨ (zeros 15).length = 32) ∧
  (zeros 33).length % 16 ≠ 0 := by simp

/-- What PKCS5 padding to 16-byte blocks can produce. -/
def WellPadded (s : Bytes) : Prop := ∃ m : Bytes, s = m ++ padText m.length 16

/-- **C08** is false of the code: unpadding accepts strings that padding cannot produce, e.g. sixteen
bytes ending in 1,2 (inconsistent pad bytes) or a block ending in zero. -/
theorem C08_unpadding_accepts_malformed :
    ∃ s : Bytes, s.length % 16 = 0 ∧ (pkcs5UnPadding s).isOk = true ∧ ¬ WellPadded s := by
  refine ⟨zeros 14 ++ [1, 2], by decide, by decide, ?_⟩
  rintro ⟨m, hm⟩
  have hl := congrArg List.length hm
  simp only [List.length_append, padText_length, zeros_length, List.length_cons,
    List.length_nil] at hl
  have h2 := congrArg (fun l => l[15]?) hm
  have h1 := congrArg (fun l => l[14]?) hm
  have hmod : m.length % 16 < 16 := Nat.mod_lt _ (by omega)
  rw [List.getElem?_append_right (by omega : m.length ≤ 15)] at h2
  simp only [padText, List.getElem?_replicate] at h2
  rw [if_pos (by omega)] at h2
  have e2 : (zeros 14 ++ [1, 2] : Bytes)[15]? = some 2 := by decide
  rw [e2] at h2
  have hp : (16 - m.length % 16) % 256 = 2 := by
    have := congrArg (fun o => o.map BitVec.toNat) h2
    simp at this
    omega
  have hm14 : m.length = 14 := by omega
  rw [List.getElem?_append_right (by omega : m.length ≤ 14)] at h1
  simp only [padText, List.getElem?_replicate] at h1
  rw [if_pos (by omega), hm14] at h1
  revert h1; decide

/-- **C08** (what does hold) unpadding succeeds exactly when the last byte is at most the length, and
then removes that many bytes; in particular it accepts every well-padded string and inverts padding. -/
theorem C08_unpadding_partial (s : Bytes) (hne : s ≠ []) :
    ((pkcs5UnPadding s).isOk = true ↔ (s.getLast hne).toNat ≤ s.length) ∧
    (∀ m, pkcs5UnPadding s = .ok m →
      s = m ++ s.drop m.length ∧ m.length = s.length - (s.getLast hne).toNat) ∧
    (WellPadded s → (pkcs5UnPadding s).isOk = true) := by
  have hpos : s.length ≠ 0 := by simpa using hne
  have hlast : s.getD (s.length - 1) 0 = s.getLast hne := by
    rw [List.getD_eq_getElem?_getD, List.getLast_eq_getElem, List.getElem?_eq_getElem (by omega)]
    rfl
  have hcode : pkcs5UnPadding s =
      if (s.getLast hne).toNat > s.length then .err "unpadding error: invalid paddding length"
      else .ok (s.take (s.length - (s.getLast hne).toNat)) := by
    unfold pkcs5UnPadding
    rw [if_neg hpos, hlast]
  refine ⟨?_, ?_, ?_⟩
  · rw [hcode]; split <;> simp <;> omega
  · intro m hm
    rw [hcode] at hm
    split at hm
    · cases hm
    · have := Res.ok.inj hm
      subst this
      have hl : (s.take (s.length - (s.getLast hne).toNat)).length
          = s.length - (s.getLast hne).toNat := by simp
      rw [hl, List.take_append_drop]
      exact ⟨rfl, rfl⟩
  · rintro ⟨m, rfl⟩
    rw [unpad_pad m 16 (by omega) (by omega)]; rfl

example : WellPadded ([1, 2, 3] ++ padText 3 16) := ⟨[1,2,3], rfl⟩

/-- Unpadding an empty slice panics (`src[length-1]`); `AesDecrypt` never passes one. -/
theorem C08_unpadding_empty_panics : (pkcs5UnPadding []).isPanic = true := rfl

/-- **C09** is false of the code: `AesEncrypt` overwrites bytes of the caller's array behind the
plaintext slice when it has spare capacity. -/
theorem C09_caller_memory_overwritten :
    ∃ (h h' : Heap) (pt ct : Slice) (key iv : Bytes), pt.Valid h ∧
      aesEncrypt sm4AsBlockCipher h pt key iv = .ok (h', ct) ∧ h'.mem pt.arr ≠ h.mem pt.arr := by
  let h : Heap := ⟨fun _ => zeros 32, 1⟩
  let pt : Slice := ⟨0, 0, 5, 32⟩
  let a := h.append pt (padText 5 16)
  let r := a.1.alloc (cbcEnc sm4AsBlockCipher (zeros 16) (a.2.len / 16) (zeros 16) (a.2.read a.1))
  refine ⟨h, r.1, pt, r.2, zeros 16, zeros 16, by simp [Slice.Valid, h, pt], rfl, ?_⟩
  show r.1.mem 0 ≠ zeros 32
  have : r.1.mem 0 = splice (zeros 32) 5 (padText 5 16) := rfl
  rw [this]
  decide

/-- **C09** (exact frame) The bytes of the plaintext slice itself always keep their values; the only
bytes that may change are the at most 16 spare-capacity bytes directly after it, and none change when
the capacity cannot hold the padding. -/
theorem C09_caller_memory_partial (c : BlockCipher) (h h' : Heap) (pt ct : Slice) (key iv : Bytes)
    (hv : pt.Valid h) (he : aesEncrypt c h pt key iv = .ok (h', ct)) :
    pt.read h' = pt.read h ∧
    (∀ a, a < h.next → a ≠ pt.arr → h'.mem a = h.mem a) ∧
    (∀ i, i < pt.off + pt.len ∨ pt.off + pt.len + (16 - pt.len % 16) ≤ i →
      (h'.mem pt.arr)[i]? = (h.mem pt.arr)[i]?) ∧
    (pt.cap < pt.len + (16 - pt.len % 16) → h'.mem pt.arr = h.mem pt.arr) := by
  obtain ⟨harr, hlc, hoc⟩ := hv
  unfold aesEncrypt pkcs5Padding at he
  by_cases hk : c.keyOk key = false
  · rw [if_pos hk] at he; cases he
  · rw [if_neg hk, if_neg (by omega), if_neg (by omega), Res.bind_ok, show (16 : Int).toNat = 16 from rfl] at he
    simp only at he
    split at he
    · cases he
    · have hh := (Prod.mk.inj (Res.ok.inj he)).1
      have hpl := padText_length pt.len 16
      have hmod : pt.len % 16 < 16 := Nat.mod_lt _ (by omega)
      -- memory of allocated arrays after the final allocation
      have hmem : ∀ a, a < h.next → h'.mem a = (h.append pt (padText pt.len 16)).1.mem a := by
        intro a ha
        rw [← hh]
        have hn : h.next ≤ (h.append pt (padText pt.len 16)).1.next := by
          unfold Heap.append; split
          · exact Nat.le_refl _
          · exact Nat.le_succ _
        simp only
        rw [if_neg (by omega)]
      have hptarr := hmem pt.arr harr
      by_cases hcap : pt.len + (padText pt.len 16).length ≤ pt.cap
      · have happ : (h.append pt (padText pt.len 16)).1
            = h.store pt.arr (pt.off + pt.len) (padText pt.len 16) := by
          unfold Heap.append; rw [if_pos hcap]
        have hbound : (pt.off + pt.len) + (padText pt.len 16).length ≤ (h.mem pt.arr).length := by
          omega
        have hget : ∀ i, i < pt.off + pt.len ∨ pt.off + pt.len + (16 - pt.len % 16) ≤ i →
            (h'.mem pt.arr)[i]? = (h.mem pt.arr)[i]? := by
          intro i hi
          rw [hptarr, happ, store_mem_eq, getElem?_splice _ _ _ hbound, if_neg (by omega)]
        refine ⟨?_, ?_, hget, fun hlt => by omega⟩
        · apply List.ext_getElem?
          intro i
          simp only [Slice.read]
          by_cases hi : i < pt.len
          · rw [List.getElem?_take_of_lt hi, List.getElem?_take_of_lt hi, List.getElem?_drop,
              List.getElem?_drop, hget _ (by omega)]
          · rw [take_none _ (by omega), take_none _ (by omega)]
        · intro a ha hne
          rw [hmem a ha, happ, store_mem_ne _ _ _ _ _ hne]
      · have happ : ∀ a, a < h.next → (h.append pt (padText pt.len 16)).1.mem a = h.mem a := by
          intro a ha
          unfold Heap.append; rw [if_neg hcap]
          simp only [Heap.alloc]
          rw [if_neg (by omega)]
        have hsame : h'.mem pt.arr = h.mem pt.arr := by rw [hptarr, happ _ harr]
        refine ⟨by simp only [Slice.read, hsame], ?_, fun i _ => by rw [hsame], fun _ => hsame⟩
        intro a ha _
        rw [hmem a ha, happ a ha]

end Verif.Props
