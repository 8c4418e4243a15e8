import Mathlib.Tactic.SplitIfs
import Mathlib.Tactic.ByContra
import Verif.Model.Crash
import Verif.Props.SM4
import Verif.Props.AES
/-!
# C139: memory after a call that fails

Does a call that ends with an error or a panic leave memory as it was? The calls that write to the caller's memory are
`Encrypt` and `Decrypt` of SM4, `AesEncrypt` and `PKCS5Padding` (`SortPublicKeys` is in C108, `Sum` of a hasher cannot
fail). It holds for errors and for a short `src`. It does not hold for a short `dst`, nor for `AesEncrypt` with an iv of
the wrong length.
-/
namespace Verif.Props
open Verif.Crash

theorem readBytes_ok (h : Heap) (src : Slice) (hv : src.Valid h) (n i : Nat) (hi : i + n ≤ src.len) :
    readBytes h src n i = .ok (((src.read h).drop i).take n) := by
  induction n generalizing i with
  | zero => simp [readBytes]
  | succ n ih =>
    have ⟨h1, h2, h3⟩ := hv
    have hl : src.off + i < (h.mem src.arr).length := by omega
    rw [readBytes, if_pos (by omega), ih (i + 1) (by omega)]
    simp only [Res.map]
    have hr : i < (src.read h).length := by simp [Slice.read]; omega
    rw [List.drop_eq_getElem_cons hr, List.take_succ_cons]
    congr 2
    rw [List.getD_eq_getElem?_getD, List.getElem?_eq_getElem hl]
    simp [Slice.read]

theorem readBytes_panic (h : Heap) (src : Slice) (n i : Nat) (hi : i ≤ src.len) (hn : src.len < i + n) :
    readBytes h src n i = .panic "index out of range" := by
  induction n generalizing i with
  | zero => omega
  | succ n ih =>
    rw [readBytes]
    split_ifs with h1
    · rw [ih (i + 1) h1 (by omega)]; rfl
    · rfl

theorem store_nil (h : Heap) (arr off : Nat) : h.store arr off [] = h := by
  unfold Heap.store splice
  cases h
  simp

theorem store_cons (h : Heap) (arr off : Nat) (b : Byte) (l : Bytes) (hb : off + 1 + l.length ≤ (h.mem arr).length) :
    (h.store arr off [b]).store arr (off + 1) l = h.store arr off (b :: l) := by
  unfold Heap.store
  congr 1
  funext i
  by_cases hi : i = arr
  · subst hi
    simp only [if_true]
    have hl : ((h.mem i).take off).length = off := by simp; omega
    apply List.ext_getElem?
    intro j
    rw [getElem?_splice _ _ _ (by rw [splice_length _ _ _ (by simp; omega)]; omega),
      getElem?_splice _ _ _ (by simp; omega), getElem?_splice _ _ _ (by simp; omega)]
    simp only [List.length_cons, List.length_nil]
    by_cases h1 : j = off
    · subst h1
      rw [if_neg (by omega), if_pos (by omega), if_pos (by omega)]; simp
    · by_cases h2 : off ≤ j ∧ j < off + (l.length + 1)
      · rw [if_pos (by omega), if_pos (by omega)]
        obtain ⟨k, hk⟩ : ∃ k, j - off = k + 1 := ⟨j - off - 1, by omega⟩
        rw [hk, List.getElem?_cons_succ, show j - (off + 1) = k by omega]
      · rw [if_neg (by omega), if_neg (by omega), if_neg (by omega)]
  · simp [hi]

theorem writeBytes_eq (dst : Slice) (out : Bytes) (i : Nat) (h : Heap) (hv : dst.Valid h) (hi : i ≤ dst.len) :
    writeBytes dst out i h = (h.store dst.arr (dst.off + i) (out.take (dst.len - i)),
      if i + out.length ≤ dst.len then .ok () else .panic "index out of range") := by
  induction out generalizing i h with
  | nil => simp [writeBytes, store_nil, hi]
  | cons b out ih =>
    have ⟨h1, h2, h3⟩ := hv
    have hc : i < dst.len → (h.mem dst.arr).length = ((h.store dst.arr (dst.off + i) [b]).mem dst.arr).length := fun h4 => by
      rw [store_mem_eq, splice_length _ _ _ (by simp; omega)]
    rw [writeBytes]
    by_cases h4 : i < dst.len
    · rw [if_pos h4, ih (i + 1) (h.store dst.arr (dst.off + i) [b]) ⟨h1, h2, (hc h4) ▸ h3⟩ h4]
      have e : (b :: out).take (dst.len - i) = b :: out.take (dst.len - (i + 1)) := by
        obtain ⟨k, hk⟩ : ∃ k, dst.len - i = k + 1 := ⟨dst.len - i - 1, by omega⟩
        rw [hk, List.take_succ_cons, show dst.len - (i + 1) = k by omega]
      have hb : dst.off + i + 1 + (out.take (dst.len - (i + 1))).length ≤ (h.mem dst.arr).length := by simp; omega
      rw [e, ← store_cons _ _ _ _ _ hb, List.length_cons, show i + 1 + out.length = i + (out.length + 1) by omega]
      rfl
    · have e : dst.len - i = 0 := by omega
      rw [if_neg h4, e, List.take_zero, store_nil, if_neg (by simp; omega)]

/-- **C139** (partial) for SM4: what `Encrypt` and `Decrypt` under a 16-byte key leave in memory, for buffers of any
length, wherever they lie. With a short `src` the call panics and memory is as it was. Otherwise the bytes of `dst`, at
most 16, become the first ones of the encrypted (decrypted) block, and nothing else changes; the call returns exactly if
`dst` has 16 bytes.
Missing: that memory is as it was when `dst` is short. It is not (`C139_sm4_fails`). -/
theorem C139_sm4_partial (key : Bytes) (c : SM4.Cipher) (hc : SM4.newCipher key = .ok c) (h : Heap) (dst src : Slice)
    (hd : dst.Valid h) (hs : src.Valid h) (dec : Bool) :
    let r := cryptBlock c.subkeys dst src dec h
    let block := (src.read h).take 16
    let out := if dec then Spec.SM4.decrypt key block else Spec.SM4.encrypt key block
    (src.len < 16 → r.1 = h ∧ ∃ m, r.2 = .panic m) ∧
    (16 ≤ src.len →
      (16 ≤ dst.len → r.2 = .ok ()) ∧ (dst.len < 16 → ∃ m, r.2 = .panic m) ∧
      (∀ i, (r.1.mem dst.arr)[i]? =
        if dst.off ≤ i ∧ i < dst.off + min 16 dst.len then out[i - dst.off]? else (h.mem dst.arr)[i]?) ∧
      (∀ a, a ≠ dst.arr → r.1.mem a = h.mem a)) := by
  have hk : key.length = 16 := by
    by_contra hk
    simp [SM4.newCipher, hk] at hc
  have hsub : c.subkeys = SM4.generateSubkeys key := by
    simp only [SM4.newCipher, hk, ne_eq, not_true_eq_false, if_false] at hc
    cases hc
    rfl
  refine ⟨fun h16 => ?_, fun h16 => ?_⟩
  · unfold cryptBlock
    rw [readBytes_panic h src 16 0 (by omega) (by omega)]
    exact ⟨rfl, _, rfl⟩
  have ⟨h1, h2, h3⟩ := hd
  have ⟨g1, g2, g3⟩ := hs
  have hr : 16 ≤ (src.read h).length := by simp [Slice.read]; omega
  have hout : SM4.cryptBytes c.subkeys ((src.read h).take 16) dec =
      if dec then Spec.SM4.decrypt key ((src.read h).take 16) else Spec.SM4.encrypt key ((src.read h).take 16) := by
    rw [hsub]
    cases dec
    · exact SM4.crypt_encrypt_eq key _ hk (by simp; omega)
    · exact SM4.crypt_decrypt_eq key _ hk (by simp; omega)
  have hl : (SM4.cryptBytes c.subkeys ((src.read h).take 16) dec).length = 16 := rfl
  unfold cryptBlock
  rw [readBytes_ok h src hs 16 0 (by omega), List.drop_zero]
  simp only
  rw [writeBytes_eq _ _ _ _ hd (by omega), hl, hout]
  rw [hout] at hl
  generalize (if dec then Spec.SM4.decrypt key ((src.read h).take 16) else Spec.SM4.encrypt key ((src.read h).take 16))
    = out at hl
  refine ⟨fun h4 => if_pos (by omega), fun h4 => ⟨_, if_neg (by omega)⟩, fun i => ?_, fun a ha => store_mem_ne _ _ _ _ _ ha⟩
  simp only [Nat.add_zero, Nat.sub_zero]
  have hlt : (out.take dst.len).length = min 16 dst.len := by rw [List.length_take, hl, Nat.min_comm]
  rw [store_mem_eq, getElem?_splice _ _ _ (by omega), hlt]
  split_ifs with hi
  · rw [List.getElem?_take_of_lt (by omega)]
  · rfl

/-- The same calls as in C03 to C05: a call of the model without failures returns exactly if this one does, with the same
memory. -/
theorem C139_sm4_same (c : SM4.Cipher) (h h' : Heap) (dst src : Slice) (hd : dst.Valid h) (hs : src.Valid h) (dec : Bool) :
    (if dec then c.decrypt h dst src else c.encrypt h dst src) = .ok h' ↔
      cryptBlock c.subkeys dst src dec h = (h', .ok ()) := by
  have ⟨g1, g2, g3⟩ := hs
  have e : (if dec then c.decrypt h dst src else c.encrypt h dst src) = SM4.cryptBlock c.subkeys h dst src dec := by
    cases dec <;> rfl
  rw [e]
  unfold SM4.cryptBlock cryptBlock
  by_cases h16 : src.len < 16
  · rw [if_pos h16, readBytes_panic h src 16 0 (by omega) (by omega)]
    simp
  rw [if_neg h16, readBytes_ok h src hs 16 0 (by omega), List.drop_zero]
  simp only
  have hl : (SM4.cryptBytes c.subkeys ((src.read h).take 16) dec).length = 16 := rfl
  rw [writeBytes_eq _ _ _ _ hd (by omega), hl]
  by_cases h4 : dst.len < 16
  · rw [if_pos h4, if_neg (by omega)]; simp
  · rw [if_neg h4, if_pos (by omega), List.take_of_length_le (by omega), Nat.add_zero, ← SM4.cryptBytes_take]
    simp

example : (⟨0, 3, 20, 25⟩ : Slice).Valid ⟨fun _ => zeros 30, 1⟩ ∧
    ∃ c, SM4.newCipher (zeros 16) = .ok c := ⟨by simp [Slice.Valid], _, rfl⟩

/-- **C139** is false for SM4 with a short `dst`: after the panic the 15 bytes of `dst` are those of the encrypted block. -/
theorem C139_sm4_fails : ∃ (c : SM4.Cipher) (h : Heap) (dst src : Slice) (m : String),
    SM4.newCipher (zeros 16) = .ok c ∧ dst.Valid h ∧ src.Valid h ∧ 16 ≤ src.len ∧
      (cryptBlock c.subkeys dst src false h).2 = .panic m ∧
      dst.read (cryptBlock c.subkeys dst src false h).1 = (Spec.SM4.encrypt (zeros 16) (zeros 16)).take 15 ∧
      dst.read (cryptBlock c.subkeys dst src false h).1 ≠ dst.read h := by
  refine ⟨⟨SM4.generateSubkeys (zeros 16)⟩, ⟨fun _ => zeros 16, 2⟩, ⟨0, 0, 15, 15⟩, ⟨1, 0, 16, 16⟩, "index out of range",
    rfl, by simp [Slice.Valid], by simp [Slice.Valid], by decide, ?_, ?_, ?_⟩ <;> decide +kernel

/-- **C139** (partial) for `AesEncrypt`, with key and iv of any length and a plaintext slice anywhere in memory. With a
key of the wrong length there is an error and memory is as it was. With a good key and an iv of the wrong length the call
panics; memory is as it was when the spare capacity of the slice does not hold the padding, and otherwise exactly the
bytes of the padding, behind the slice, are changed. With good key and iv the call returns.
Missing: that memory is as it was in all these cases (`C139_aes_fails`). -/
theorem C139_aes_partial (c : BlockCipher) (hc : c.Lawful) (h : Heap) (pt : Slice) (hv : pt.Valid h) (key iv : Bytes) :
    let r := Crash.aesEncrypt c pt key iv h
    let good := key.length = 16 ∨ key.length = 24 ∨ key.length = 32
    let p := 16 - pt.len % 16
    (¬ good → r.1 = h ∧ ∃ m, r.2 = .err m) ∧
    (good → iv.length = 16 → ∃ ct, r.2 = .ok ct ∧ AES.aesEncrypt c h pt key iv = .ok (r.1, ct)) ∧
    (good → iv.length ≠ 16 → (∃ m, r.2 = .panic m) ∧ (∀ a, a < h.next → a ≠ pt.arr → r.1.mem a = h.mem a) ∧
      ∀ i, (r.1.mem pt.arr)[i]? =
        if pt.len + p ≤ pt.cap ∧ pt.off + pt.len ≤ i ∧ i < pt.off + pt.len + p then some (BitVec.ofNat 8 p)
        else (h.mem pt.arr)[i]?) := by
  have ⟨h1, h2, h3⟩ := hv
  have hp : (AES.padText pt.len 16).length = 16 - pt.len % 16 := by simp [AES.padText]
  have hval : ∀ i < 16 - pt.len % 16, (AES.padText pt.len 16)[i]? = some (BitVec.ofNat 8 (16 - pt.len % 16)) := by
    intro i hi
    simp [AES.padText, hi]
  have e16 : (16 : Int).toNat = 16 := rfl
  refine ⟨fun hb => ?_, fun hg hi => ?_, fun hg hi => ?_⟩
  · have : c.keyOk key = false := by rw [← Bool.not_eq_true, hc.keyOk_iff]; exact hb
    unfold Crash.aesEncrypt
    rw [if_pos this]
    exact ⟨rfl, _, rfl⟩
  · have : c.keyOk key = true := (hc.keyOk_iff key).2 hg
    have e : Crash.aesEncrypt c pt key iv h =
        let a := h.append pt (AES.padText pt.len 16)
        let r := a.1.alloc (cbcEnc c key (a.2.len / 16) iv (a.2.read a.1))
        (r.1, .ok r.2) := by
      simp [Crash.aesEncrypt, Crash.pkcs5Padding, this, hi]
    rw [e]
    refine ⟨_, rfl, ?_⟩
    simp [AES.aesEncrypt, AES.pkcs5Padding, this, hi, Res.bind]
  · have : c.keyOk key = true := (hc.keyOk_iff key).2 hg
    have e : Crash.aesEncrypt c pt key iv h = ((h.append pt (AES.padText pt.len 16)).1,
        .panic "cipher.NewCBCEncrypter: IV length must equal block size") := by
      simp [Crash.aesEncrypt, Crash.pkcs5Padding, this, hi]
    rw [e]
    refine ⟨⟨_, rfl⟩, ?_⟩
    unfold Heap.append
    rw [hp]
    by_cases hcap : pt.len + (16 - pt.len % 16) ≤ pt.cap
    · rw [if_pos hcap]
      refine ⟨fun a _ ha => store_mem_ne _ _ _ _ _ ha, fun i => ?_⟩
      simp only [store_mem_eq]
      rw [getElem?_splice _ _ _ (by omega), hp]
      by_cases hi : pt.off + pt.len ≤ i ∧ i < pt.off + pt.len + (16 - pt.len % 16)
      · rw [if_pos hi, if_pos ⟨hcap, hi⟩, hval _ (by omega)]
      · rw [if_neg hi, if_neg (fun h => hi h.2)]
    · rw [if_neg hcap]
      have hne : ∀ a, a < h.next → ¬ a = h.next := fun a ha => by omega
      refine ⟨fun a ha _ => if_neg (hne a ha), fun i => ?_⟩
      rw [if_neg (fun h => hcap h.1)]
      show (if pt.arr = h.next then _ else h.mem pt.arr)[i]? = _
      rw [if_neg (hne _ h1)]

/-- **C139** is false for `AesEncrypt` with an empty iv: it panics after it has changed the byte behind the plaintext. -/
theorem C139_aes_fails : ∃ (h : Heap) (pt : Slice) (m : String), pt.Valid h ∧
    (Crash.aesEncrypt sm4AsBlockCipher pt (zeros 16) [] h).2 = .panic m ∧
    (Crash.aesEncrypt sm4AsBlockCipher pt (zeros 16) [] h).1.mem pt.arr ≠ h.mem pt.arr := by
  refine ⟨⟨fun _ => zeros 16, 1⟩, ⟨0, 0, 15, 16⟩, _, by simp [Slice.Valid], rfl, ?_⟩
  decide +kernel

/-- **C139** for `PKCS5Padding`: when it panics, memory is as it was; otherwise it is the call of C06. -/
theorem C139_padding (h : Heap) (src : Slice) (bs : Int) :
    (bs ≤ 0 → (Crash.pkcs5Padding src bs h).1 = h ∧ ∃ m, (Crash.pkcs5Padding src bs h).2 = .panic m) ∧
    (0 < bs → ∃ s, (Crash.pkcs5Padding src bs h).2 = .ok s ∧
      AES.pkcs5Padding h src bs = .ok ((Crash.pkcs5Padding src bs h).1, s)) := by
  unfold Crash.pkcs5Padding AES.pkcs5Padding
  refine ⟨fun h0 => ?_, fun h0 => ?_⟩
  · split_ifs
    · exact ⟨rfl, _, rfl⟩
    · exact ⟨rfl, _, rfl⟩
    · omega
  · rw [if_neg (by omega), if_neg (by omega), if_neg (by omega), if_neg (by omega)]
    exact ⟨_, rfl, rfl⟩

end Verif.Props
