import Verif.Props.AESAuth
/-!
# C133: what the answers of AesDecrypt tell

Someone who has a ciphertext and can have others decrypted, but sees only whether `AesDecrypt` accepts them.
-/
namespace Verif.Props
open Verif AES

theorem getD_append_left' {a b : Bytes} {i : Nat} (h : i < a.length) : (a ++ b).getD i 0 = a.getD i 0 := by
  simp only [List.getD_eq_getElem?_getD]
  rw [List.getElem?_append_left h]

theorem getD_append_right' {a b : Bytes} {i : Nat} (h : a.length ≤ i) : (a ++ b).getD i 0 = b.getD (i - a.length) 0 := by
  simp only [List.getD_eq_getElem?_getD]
  rw [List.getElem?_append_right h]

theorem xorBytes_getD {a b : Bytes} {i : Nat} (ha : i < a.length) (hb : i < b.length) :
    (xorBytes a b).getD i 0 = a.getD i 0 ^^^ b.getD i 0 := by
  simp only [List.getD_eq_getElem?_getD, xorBytes, List.getElem?_zipWith, List.getElem?_eq_getElem ha,
    List.getElem?_eq_getElem hb]
  rfl

/-- The last byte of block `i` of what CBC decryption returns. -/
theorem cbcDec_last (c : BlockCipher) (hc : c.Lawful) (key : Bytes) (n : Nat) : ∀ (iv ct : Bytes) (i : Nat),
    iv.length = 16 → ct.length = 16 * n → i < n →
    (cbcDec c key n iv ct).getD (16 * i + 15) 0 =
      (c.dec key ((ct.drop (16 * i)).take 16)).getD 15 0 ^^^ (iv ++ ct).getD (16 * i + 15) 0 := by
  induction n with
  | zero => intro iv ct i _ _ hi; omega
  | succ n ih =>
    intro iv ct i hiv hl hi
    have ht : (ct.take 16).length = 16 := by rw [List.length_take]; omega
    have hd : (ct.drop 16).length = 16 * n := by rw [List.length_drop]; omega
    have ho := hc.dec_length key _ ht
    have hx : (xorBytes (c.dec key (ct.take 16)) iv).length = 16 := by rw [xorBytes_length]; omega
    simp only [cbcDec]
    cases i with
    | zero =>
      rw [getD_append_left' (by omega), xorBytes_getD (by omega) (by omega), getD_append_left' (by omega)]
      rfl
    | succ i =>
      rw [getD_append_right' (by omega), hx, show 16 * (i + 1) + 15 - 16 = 16 * i + 15 by omega,
        ih (ct.take 16) (ct.drop 16) i ht hd (by omega), List.take_append_drop, List.drop_drop,
        getD_append_right' (a := iv) (by omega), hiv, show 16 * (i + 1) + 15 - 16 = 16 * i + 15 by omega,
        show 16 + 16 * i = 16 * (i + 1) by omega]

/-- **C133** The part that holds: an answer depends on the length of the ciphertext and on one byte of the result, the last
one. So one question tells nothing more than whether that byte is at most the length. Missing: that the answers tell
nothing at all, which is false (below). -/
theorem C133_answer_partial (c : BlockCipher) (hc : c.Lawful) (ct key iv : Bytes)
    (hk : key.length = 16 ∨ key.length = 24 ∨ key.length = 32) (hiv : iv.length = 16)
    (h0 : 0 < ct.length) (h16 : ct.length % 16 = 0) :
    (aesDecrypt c ct key iv).isOk = true ↔
      ((c.dec key (ct.drop (ct.length - 16))).getD 15 0 ^^^ (iv ++ ct).getD (ct.length - 1) 0).toNat ≤ ct.length := by
  have hk' := (hc.keyOk_iff key).2 hk
  obtain ⟨n, hn⟩ : ∃ n, ct.length = 16 * (n + 1) := ⟨ct.length / 16 - 1, by omega⟩
  have hd := cbcDec_length c hc key _ iv ct hiv hn
  rw [decrypt_eq_unpad c key iv _ hk' hiv _ (by omega) hn, unpad_isOk _ (by omega), hd,
    show 16 * (n + 1) - 1 = 16 * n + 15 by omega, cbcDec_last c hc key _ iv ct n hiv hn (by omega), hn,
    show 16 * (n + 1) - 16 = 16 * n by omega, show 16 * (n + 1) - 1 = 16 * n + 15 by omega,
    List.take_of_length_le (by rw [List.length_drop]; omega)]

theorem byte_of_answers : ∀ d : Byte, d.toNat ≤ 16 → (d ^^^ 16).toNat ≤ 16 → (d ^^^ 1).toNat ≤ 16 → d = 0 := by
  decide +kernel

/-- A byte is determined by which of its sums with the 256 bytes are at most 16. -/
theorem byte_determined {a b : Byte} (h : ∀ x : Byte, (a ^^^ x).toNat ≤ 16 ↔ (b ^^^ x).toNat ≤ 16) : a = b := by
  have q : ∀ y : Byte, y.toNat ≤ 16 → (a ^^^ b ^^^ y).toNat ≤ 16 := by
    intro y hy
    have e := (h (b ^^^ y)).2 (by rwa [← BitVec.xor_assoc, BitVec.xor_self, BitVec.zero_xor])
    rwa [← BitVec.xor_assoc] at e
  have e := byte_of_answers (a ^^^ b) (by simpa using q 0 (by decide)) (q 16 (by decide)) (q 1 (by decide))
  have := congrArg (· ^^^ b) e
  simpa [BitVec.xor_assoc] using this

/-- The question about a block: it alone, with an iv of which the last byte is chosen. -/
def question (c : BlockCipher) (key ct : Bytes) (i : Nat) (x : Byte) : Bool :=
  (aesDecrypt c ((ct.drop (16 * i)).take 16) key (zeros 15 ++ [x])).isOk

theorem question_iff (c : BlockCipher) (hc : c.Lawful) (key ct : Bytes)
    (hk : key.length = 16 ∨ key.length = 24 ∨ key.length = 32) (i : Nat) (hi : 16 * i + 16 ≤ ct.length) (x : Byte) :
    question c key ct i x = true ↔ ((c.dec key ((ct.drop (16 * i)).take 16)).getD 15 0 ^^^ x).toNat ≤ 16 := by
  have hl : ((ct.drop (16 * i)).take 16).length = 16 := by rw [List.length_take, List.length_drop]; omega
  unfold question
  rw [C133_answer_partial c hc _ key _ hk (by rfl) (by omega) (by omega), hl]
  have : (zeros 15 ++ [x] ++ (ct.drop (16 * i)).take 16).getD (16 - 1) 0 = x := by
    rw [getD_append_left' (by simp)]
    rfl
  rw [this]
  rfl

/-- **C133** (negation) Let two messages have the same ciphertext, each under its key. If they differ in length, or in the
last byte of a block of sixteen, then one of the 256 questions about one block of the ciphertext is answered
differently. So the answers to these questions, none of which is about the whole ciphertext, tell the length of the
message and every sixteenth byte of it. -/
theorem C133_disclosed_fails (c : BlockCipher) (hc : c.Lawful) (h h' : Heap) (pt pt' : Slice)
    (hv : pt.Valid h) (hv' : pt'.Valid h') (key key' iv : Bytes)
    (hk : key.length = 16 ∨ key.length = 24 ∨ key.length = 32)
    (hk' : key'.length = 16 ∨ key'.length = 24 ∨ key'.length = 32) (hiv : iv.length = 16)
    (g g' : Heap) (ct ct' : Slice) (he : aesEncrypt c h pt key iv = .ok (g, ct))
    (he' : aesEncrypt c h' pt' key' iv = .ok (g', ct')) (hct : ct.read g = ct'.read g')
    (hq : ∀ i, 16 * i < (ct.read g).length → ∀ x, question c key (ct.read g) i x = question c key' (ct.read g) i x) :
    pt.len = pt'.len ∧ ∀ i, 16 * i + 15 < pt.len → (pt.read h).getD (16 * i + 15) 0 = (pt'.read h').getD (16 * i + 15) 0 := by
  have ko := (hc.keyOk_iff key).2 hk
  have ko' := (hc.keyOk_iff key').2 hk'
  obtain ⟨_, _, e1, e2⟩ := encrypt_read c h pt hv key iv ko hiv
  obtain ⟨_, _, e1', e2'⟩ := encrypt_read c h' pt' hv' key' iv ko' hiv
  rw [he] at e1
  rw [he'] at e1'
  cases e1
  cases e1'
  have hr := read_length h pt hv
  have hr' := read_length h' pt' hv'
  have hp : (pt.read h ++ padText pt.len 16).length = 16 * (pt.len / 16 + 1) := by
    rw [List.length_append, hr, padText_length]; omega
  have hp' : (pt'.read h' ++ padText pt'.len 16).length = 16 * (pt'.len / 16 + 1) := by
    rw [List.length_append, hr', padText_length]; omega
  have hl : (ct.read g).length = 16 * (pt.len / 16 + 1) := by rw [e2]; exact cbcEnc_length c hc key _ iv _ hiv hp
  have hl' : (ct.read g).length = 16 * (pt'.len / 16 + 1) := by
    rw [hct, e2']; exact cbcEnc_length c hc key' _ iv _ hiv hp'
  have hn : pt'.len / 16 = pt.len / 16 := by omega
  have d := cbcDec_cbcEnc c hc key ko _ iv _ hiv hp
  have d' := cbcDec_cbcEnc c hc key' ko' _ iv _ hiv hp'
  rw [← e2] at d
  rw [← e2', ← hct, hn] at d'
  have key_eq : ∀ i, i < pt.len / 16 + 1 →
      (pt.read h ++ padText pt.len 16).getD (16 * i + 15) 0 = (pt'.read h' ++ padText pt'.len 16).getD (16 * i + 15) 0 := by
    intro i hi
    rw [← d, ← d', cbcDec_last c hc key _ iv _ i hiv hl hi, cbcDec_last c hc key' _ iv _ i hiv hl hi]
    congr 1
    refine byte_determined fun x => ?_
    rw [← question_iff c hc key (ct.read g) hk i (by omega) x, ← question_iff c hc key' (ct.read g) hk' i (by omega) x,
      hq i (by omega) x]
  have hpad : ∀ (m : Bytes) (k : Nat), m.length = k → (m ++ padText k 16).getD (16 * (k / 16) + 15) 0 =
      BitVec.ofNat 8 (16 - k % 16) := by
    intro m k hm
    rw [getD_append_right' (by omega), padText, List.getD_eq_getElem?_getD, List.getElem?_replicate, if_pos (by omega)]
    rfl
  have hlast := key_eq (pt.len / 16) (by omega)
  rw [hpad _ _ hr, ← hn, hpad _ _ hr'] at hlast
  have hlast := congrArg BitVec.toNat hlast
  simp only [BitVec.toNat_ofNat] at hlast
  have hlen : pt.len = pt'.len := by omega
  refine ⟨hlen, fun i hi => ?_⟩
  have := key_eq i (by omega)
  rwa [getD_append_left' (by omega), getD_append_left' (by omega)] at this

/-- The answer to a question about what `AesEncrypt` returned. -/
def answered (r : Res (Heap × Slice)) (key : Bytes) (i : Nat) (x : Byte) : Option Bool :=
  match r with
  | .ok (g, ct) => some (question sm4AsBlockCipher key (ct.read g) i x)
  | _ => none

/-- A case that meets the hypotheses, with answers of both kinds: a message of 20 bytes, its first block, of which the last byte is 0. -/
example : (⟨0, 0, 20, 20⟩ : Slice).Valid ⟨fun _ => zeros 19 ++ [7], 1⟩ ∧
    answered (aesEncrypt sm4AsBlockCipher ⟨fun _ => zeros 19 ++ [7], 1⟩ ⟨0, 0, 20, 20⟩ (zeros 16) (zeros 16)) (zeros 16) 0 0 =
      some true ∧
    answered (aesEncrypt sm4AsBlockCipher ⟨fun _ => zeros 19 ++ [7], 1⟩ ⟨0, 0, 20, 20⟩ (zeros 16) (zeros 16)) (zeros 16) 0 17 =
      some false := by
  refine ⟨⟨by decide, by decide, by decide⟩, by decide +kernel, by decide +kernel⟩

end Verif.Props
