import Verif.Props.AESAuth
import Verif.Props.GoAES
/-!
# C147: what ciphertexts of AesEncrypt tell about the plaintexts
-/
namespace Verif.Props
open Verif.AES

/-- Block number `i` of a byte string. -/
def blk (b : Bytes) (i : Nat) : Bytes := (b.drop (16 * i)).take 16

/-- The bytes that are encrypted: the message and 1 to 16 bytes that tell their own number. -/
def padded (m : Bytes) : Bytes := m ++ List.replicate (16 - m.length % 16) (BitVec.ofNat 8 (16 - m.length % 16))

theorem padded_length (m : Bytes) : (padded m).length = 16 * (m.length / 16 + 1) := by
  unfold padded
  rw [List.length_append, List.length_replicate]
  omega

theorem cbcEnc_blk (c : BlockCipher) (hc : c.Lawful) (key : Bytes) (n : Nat) : ∀ (iv p : Bytes), iv.length = 16 →
    p.length = 16 * n → ∀ i < n, blk (cbcEnc c key n iv p) i = c.enc key (xorBytes (blk p i) (blk (iv ++ cbcEnc c key n iv p) i)) := by
  induction n with
  | zero => intro iv p _ _ i hi; omega
  | succ n ih =>
    intro iv p hiv hp i hi
    have hx : (xorBytes (p.take 16) iv).length = 16 := by
      rw [xorBytes_length]; simp; omega
    have ho := hc.enc_length key _ hx
    simp only [cbcEnc]
    generalize ho' : c.enc key (xorBytes (p.take 16) iv) = o at ho
    cases i with
    | zero =>
      unfold blk
      simp only [Nat.mul_zero, List.drop_zero]
      rw [List.take_left' ho, List.take_left' hiv, ho']
    | succ i =>
      have h := ih o (p.drop 16) ho (by rw [List.length_drop]; omega) i (by omega)
      have e : ∀ a b : Bytes, a.length = 16 → blk (a ++ b) (i + 1) = blk b i := by
        intro a b ha
        unfold blk
        rw [show 16 * (i + 1) = a.length + 16 * i by omega, List.drop_length_add_append]
      rw [e _ _ ho, e _ _ hiv, h]
      congr 2
      unfold blk
      rw [List.drop_drop]
      congr 2
      omega

theorem cbcEnc_take (c : BlockCipher) (hc : c.Lawful) (key : Bytes) (hk : c.keyOk key = true) : ∀ (k n n' : Nat) (iv p p' : Bytes), iv.length = 16 →
    p.length = 16 * n → p'.length = 16 * n' → k ≤ n → k ≤ n' →
    ((cbcEnc c key n iv p).take (16 * k) = (cbcEnc c key n' iv p').take (16 * k) ↔ p.take (16 * k) = p'.take (16 * k)) := by
  intro k
  induction k with
  | zero => intros; simp
  | succ k ih =>
    intro n n' iv p p' hiv hp hp' hn hn'
    obtain ⟨n, rfl⟩ : ∃ j, n = j + 1 := ⟨n - 1, by omega⟩
    obtain ⟨n', rfl⟩ : ∃ j, n' = j + 1 := ⟨n' - 1, by omega⟩
    have hx : (xorBytes (p.take 16) iv).length = 16 := by rw [xorBytes_length]; simp; omega
    have hx' : (xorBytes (p'.take 16) iv).length = 16 := by rw [xorBytes_length]; simp; omega
    have ho := hc.enc_length key _ hx
    have ho' := hc.enc_length key _ hx'
    have split : ∀ a b : Bytes, a.length = 16 → (a ++ b).take (16 * (k + 1)) = a ++ b.take (16 * k) := by
      intro a b ha
      rw [show 16 * (k + 1) = a.length + 16 * k by omega, List.take_length_add_append]
    have hsp : ∀ q : Bytes, q.take (16 * (k + 1)) = q.take 16 ++ (q.drop 16).take (16 * k) := by
      intro q
      rw [show 16 * (k + 1) = 16 + 16 * k by omega, List.take_add]
    simp only [cbcEnc]
    rw [split _ _ ho, split _ _ ho', hsp p, hsp p']
    have key1 : c.enc key (xorBytes (p.take 16) iv) = c.enc key (xorBytes (p'.take 16) iv) ↔ p.take 16 = p'.take 16 := by
      constructor
      · intro e
        have := congrArg (c.dec key) e
        rw [hc.dec_enc key _ hk hx, hc.dec_enc key _ hk hx'] at this
        have := congrArg (xorBytes · iv) this
        simpa only [xorBytes_cancel _ _ (show (p.take 16).length ≤ iv.length by simp; omega),
          xorBytes_cancel _ _ (show (p'.take 16).length ≤ iv.length by simp; omega)] using this
      · intro e; rw [e]
    constructor
    · intro e
      obtain ⟨e1, e2⟩ := List.append_inj e (by rw [ho, ho'])
      have e3 := key1.1 e1
      rw [e1] at e2
      rw [(ih n n' _ (p.drop 16) (p'.drop 16) ho' (by simp; omega) (by simp; omega) (by omega) (by omega)).1 e2, e3]
    · intro e
      obtain ⟨e1, e2⟩ := List.append_inj e (by simp; omega)
      rw [key1.2 e1, (ih n n' _ (p.drop 16) (p'.drop 16) ho' (by simp; omega) (by simp; omega) (by omega) (by omega)).2 e2]

/-- What `AesEncrypt` returns, in terms of the message. -/
theorem encrypt_padded (c : BlockCipher) (h : Heap) (pt : Slice) (hv : pt.Valid h) (key iv : Bytes)
    (hk : c.keyOk key = true) (hiv : iv.length = 16) (h' : Heap) (ct : Slice)
    (he : aesEncrypt c h pt key iv = .ok (h', ct)) :
    ct.read h' = cbcEnc c key ((pt.read h).length / 16 + 1) iv (padded (pt.read h)) := by
  obtain ⟨h1, ct1, e1, e2⟩ := encrypt_read c h pt hv key iv hk hiv
  rw [e1] at he
  cases he
  rw [e2, read_length h pt hv]
  unfold padded
  rw [read_length h pt hv]
  rfl

/-- **C147** (partial) The length of a ciphertext tells the number of whole blocks of the message and nothing else. Missing:
the cases below. -/
theorem C147_length_partial (c : BlockCipher) (hc : c.Lawful) (h : Heap) (pt : Slice) (hv : pt.Valid h) (key iv : Bytes)
    (hk : key.length = 16 ∨ key.length = 24 ∨ key.length = 32) (hiv : iv.length = 16) (h' : Heap) (ct : Slice)
    (he : aesEncrypt c h pt key iv = .ok (h', ct)) : (ct.read h').length = 16 * ((pt.read h).length / 16 + 1) := by
  rw [encrypt_padded c h pt hv key iv ((hc.keyOk_iff key).2 hk) hiv h' ct he,
    cbcEnc_length c hc key _ iv _ hiv (padded_length _)]

/-- **C147** is false when an iv is repeated: two ciphertexts agree in the first blocks exactly as long as the messages do. -/
theorem C147_repeated_iv_fails (c : BlockCipher) (hc : c.Lawful) (h g : Heap) (pt qt : Slice) (hv : pt.Valid h) (hw : qt.Valid g)
    (key iv : Bytes) (hk : key.length = 16 ∨ key.length = 24 ∨ key.length = 32) (hiv : iv.length = 16)
    (h' g' : Heap) (ct dt : Slice) (he : aesEncrypt c h pt key iv = .ok (h', ct)) (hf : aesEncrypt c g qt key iv = .ok (g', dt))
    (k : Nat) (hp : 16 * k ≤ (pt.read h).length) (hq : 16 * k ≤ (qt.read g).length) :
    (ct.read h').take (16 * k) = (dt.read g').take (16 * k) ↔ (pt.read h).take (16 * k) = (qt.read g).take (16 * k) := by
  have hk' := (hc.keyOk_iff key).2 hk
  rw [encrypt_padded c h pt hv key iv hk' hiv h' ct he, encrypt_padded c g qt hw key iv hk' hiv g' dt hf,
    cbcEnc_take c hc key hk' k _ _ iv _ _ hiv (padded_length _) (padded_length _) (by omega) (by omega)]
  unfold padded
  rw [List.take_append_of_le_length hp, List.take_append_of_le_length hq]

/-- **C147** is false also with different ivs: two equal blocks, in one or in two ciphertexts under a key, tell the
difference of the blocks of the messages: it is that of the blocks before them (the iv before the first). -/
theorem C147_equal_blocks_fails (c : BlockCipher) (hc : c.Lawful) (h g : Heap) (pt qt : Slice) (hv : pt.Valid h) (hw : qt.Valid g)
    (key iv jv : Bytes) (hk : key.length = 16 ∨ key.length = 24 ∨ key.length = 32) (hiv : iv.length = 16) (hjv : jv.length = 16)
    (h' g' : Heap) (ct dt : Slice) (he : aesEncrypt c h pt key iv = .ok (h', ct)) (hf : aesEncrypt c g qt key jv = .ok (g', dt))
    (i j : Nat) (hi : i ≤ (pt.read h).length / 16) (hj : j ≤ (qt.read g).length / 16) :
    blk (ct.read h') i = blk (dt.read g') j ↔
      xorBytes (blk (padded (pt.read h)) i) (blk (padded (qt.read g)) j) =
        xorBytes (blk (iv ++ ct.read h') i) (blk (jv ++ dt.read g') j) := by
  have hk' := (hc.keyOk_iff key).2 hk
  have e1 := encrypt_padded c h pt hv key iv hk' hiv h' ct he
  have e2 := encrypt_padded c g qt hw key jv hk' hjv g' dt hf
  have b1 := cbcEnc_blk c hc key _ iv _ hiv (padded_length (pt.read h)) i (by omega)
  have b2 := cbcEnc_blk c hc key _ jv _ hjv (padded_length (qt.read g)) j (by omega)
  have l1 := cbcEnc_length c hc key _ iv _ hiv (padded_length (pt.read h))
  have l2 := cbcEnc_length c hc key _ jv _ hjv (padded_length (qt.read g))
  rw [← e1] at b1 l1
  rw [← e2] at b2 l2
  have lb : ∀ (x : Bytes) (i : Nat), 16 * i + 16 ≤ x.length → (blk x i).length = 16 := by
    intro x i hx; unfold blk; rw [List.length_take, List.length_drop]; omega
  have p1 := lb (padded (pt.read h)) i (by rw [padded_length]; omega)
  have p2 := lb (padded (qt.read g)) j (by rw [padded_length]; omega)
  have q1 := lb (iv ++ ct.read h') i (by rw [List.length_append, l1]; omega)
  have q2 := lb (jv ++ dt.read g') j (by rw [List.length_append, l2]; omega)
  rw [b1, b2]
  generalize blk (padded (pt.read h)) i = a at *
  generalize blk (padded (qt.read g)) j = b at *
  generalize blk (iv ++ ct.read h') i = x at *
  generalize blk (jv ++ dt.read g') j = y at *
  have hx : (xorBytes a x).length = 16 := by rw [xorBytes_length]; omega
  have hy : (xorBytes b y).length = 16 := by rw [xorBytes_length]; omega
  have inj : c.enc key (xorBytes a x) = c.enc key (xorBytes b y) ↔ xorBytes a x = xorBytes b y := by
    constructor
    · intro e
      have := congrArg (c.dec key) e
      rwa [hc.dec_enc key _ hk' hx, hc.dec_enc key _ hk' hy] at this
    · intro e; rw [e]
  rw [inj]
  have ext : ∀ u v : Bytes, u.length = 16 → v.length = 16 → (u = v ↔ ∀ i < 16, u.getD i 0 = v.getD i 0) := by
    intro u v hu hv
    constructor
    · rintro rfl _ _; rfl
    · intro e
      apply List.ext_getElem (by omega)
      intro i h1 h2
      have := e i (by omega)
      simpa [List.getD_eq_getElem?_getD, h1, h2] using this
  have gx : ∀ u v : Bytes, u.length = 16 → v.length = 16 → ∀ i < 16, (xorBytes u v).getD i 0 = u.getD i 0 ^^^ v.getD i 0 := by
    intro u v hu hv i hi
    simp [xorBytes, List.getD_eq_getElem?_getD, hu, hv, hi]
  have hab : (xorBytes a b).length = 16 := by rw [xorBytes_length]; omega
  have hxy : (xorBytes x y).length = 16 := by rw [xorBytes_length]; omega
  rw [ext _ _ hx hy, ext _ _ hab hxy]
  have bit : ∀ a b x y : Byte, a ^^^ x = b ^^^ y ↔ a ^^^ b = x ^^^ y := by
    intro a b x y
    constructor
    · intro e
      have := congrArg (· ^^^ (x ^^^ b)) e
      rw [show a ^^^ x ^^^ (x ^^^ b) = a ^^^ b ^^^ (x ^^^ x) by ac_rfl, show b ^^^ y ^^^ (x ^^^ b) = x ^^^ y ^^^ (b ^^^ b) by ac_rfl] at this
      simpa using this
    · intro e
      have := congrArg (· ^^^ (x ^^^ b)) e
      rw [show a ^^^ b ^^^ (x ^^^ b) = a ^^^ x ^^^ (b ^^^ b) by ac_rfl, show x ^^^ y ^^^ (x ^^^ b) = b ^^^ y ^^^ (x ^^^ x) by ac_rfl] at this
      simpa using this
  constructor
  · intro e i hi
    have := e i hi
    rw [gx _ _ p1 q1 i hi, gx _ _ p2 q2 i hi, bit] at this
    rw [gx _ _ p1 p2 i hi, gx _ _ q1 q2 i hi]
    exact this
  · intro e i hi
    have := e i hi
    rw [gx _ _ p1 p2 i hi, gx _ _ q1 q2 i hi, ← bit] at this
    rw [gx _ _ p1 q1 i hi, gx _ _ p2 q2 i hi]
    exact this

/-! ## The hypotheses are met -/

/-- Two messages of 20 bytes with a common first block, encrypted with AES under one key and iv. -/
example : ∃ h' ct g' dt, aesEncrypt GoAES.aes ⟨fun _ => zeros 40, 1⟩ ⟨0, 0, 20, 20⟩ (zeros 16) (zeros 16) = .ok (h', ct) ∧
    aesEncrypt GoAES.aes ⟨fun _ => zeros 16 ++ [1, 2, 3, 4], 1⟩ ⟨0, 0, 20, 20⟩ (zeros 16) (zeros 16) = .ok (g', dt) ∧
    (ct.read h').take 16 = (dt.read g').take 16 ∧ blk (ct.read h') 0 = blk (dt.read g') 0 ∧ (ct.read h').length = 32 := by
  have v1 : (⟨0, 0, 20, 20⟩ : Slice).Valid ⟨fun _ => zeros 40, 1⟩ := by simp [Slice.Valid, zeros]
  have v2 : (⟨0, 0, 20, 20⟩ : Slice).Valid ⟨fun _ => zeros 16 ++ [1, 2, 3, 4], 1⟩ := by simp [Slice.Valid, zeros]
  obtain ⟨h', ct, e, -⟩ := encrypt_read GoAES.aes _ _ v1 (zeros 16) (zeros 16) rfl rfl
  obtain ⟨g', dt, f, -⟩ := encrypt_read GoAES.aes _ _ v2 (zeros 16) (zeros 16) rfl rfl
  have t := (C147_repeated_iv_fails GoAES.aes C146_lawful _ _ _ _ v1 v2 _ _ (.inl rfl) rfl _ _ _ _ e f 1
    (by decide +kernel) (by decide +kernel)).2 (by decide +kernel)
  refine ⟨h', ct, g', dt, e, f, t, (C147_equal_blocks_fails GoAES.aes C146_lawful _ _ _ _ v1 v2 _ _ _ (.inl rfl) rfl rfl
    _ _ _ _ e f 0 0 (by decide +kernel) (by decide +kernel)).2 ?_,
    C147_length_partial GoAES.aes C146_lawful _ _ v1 _ _ (.inl rfl) rfl _ _ e⟩
  rw [show blk (zeros 16 ++ ct.read h') 0 = zeros 16 from List.take_left' rfl,
    show blk (zeros 16 ++ dt.read g') 0 = zeros 16 from List.take_left' rfl]
  decide +kernel

end Verif.Props
