import Verif.Props.Wif
import Verif.Model.GoScrypt
import Mathlib.Tactic.IntervalCases
/-!
# C151: the texts of exported keys
-/
namespace Verif.Props
open Verif.Keypair Verif.EC

/-- The code that keypair/wif.go calls, written out: SHA-256 and base58. -/
def fullWif : WifExt where
  sha256 := Scrypt.sha256
  b58enc := base58Encode
  b58dec := base58Decode

/-- The number in base 58, with the digits of Bitcoin and the most significant one first. -/
def text58 (n : Nat) : Bytes := (Nat.digits 58 n).reverse.map fun d => base58Alphabet.getD d 0

/-- **C151** The library code as it is written out has the properties that are assumed of it. -/
theorem C151_lawful : fullWif.Lawful where
  sha_length b := by
    show (Scrypt.sha256 b).length = 32
    unfold Scrypt.sha256
    simp only [List.length_append, beFix_length]
  b58 := base58_law

theorem encode_text (n : Nat) (h : 0 < n) : base58Encode (decText n) = .ok (text58 n) := by
  have hz : (decText n).takeWhile (· = 0x30) = [] := by
    obtain ⟨d, rest, he, hd, h0⟩ := decText_head n
    rw [he, List.takeWhile_cons_of_neg]
    simp only [decide_eq_true_eq]
    intro e
    have := congrArg BitVec.toNat e
    simp at this
    have := h0 h
    omega
  unfold base58Encode
  rw [if_neg (decText_ne_nil n), setString_decText]
  simp only
  rw [if_neg (by omega), hz]
  rfl

/-- **C151** Every text that `Key2WIF` returns has 52 characters and begins with K or L. -/
theorem C151_form (E : Ext) (k : PrivateKey) (w : Bytes) (h : key2WIF E fullWif k = .ok w) :
    w.length = 52 ∧ (w.head? = some 0x4b ∨ w.head? = some 0x4c) := by
  unfold key2WIF at h
  cases hd : serializePrivateKey E k with
  | err m => rw [hd] at h; cases h
  | panic m => rw [hd] at h; cases h
  | ok data =>
    rw [hd] at h
    simp only at h
    by_cases hc : data.length < 34 ∨ data.getD 0 0 ≠ PK_ECDSA ∨ data.getD 1 0 ≠ P256
    · rw [if_pos hc] at h; cases h
    rw [if_neg hc] at h
    have hl : 34 ≤ data.length := by
      by_contra hl
      exact hc (.inl (by omega))
    obtain ⟨b, hb, hn⟩ : ∃ b : Bytes, b.length = 37 ∧
        (0x80 :: (data.drop 2).take 32 ++ [0x01]) ++ fullWif.checksum (0x80 :: (data.drop 2).take 32 ++ [0x01]) = 0x80 :: b := by
      refine ⟨(data.drop 2).take 32 ++ [0x01] ++ fullWif.checksum (0x80 :: (data.drop 2).take 32 ++ [0x01]), ?_, by simp⟩
      rw [List.length_append, checksum_length C151_lawful, List.length_append, List.length_take, List.length_drop]
      simp
      omega
    rw [hn] at h
    generalize hN : natOfBytes (0x80 :: b) = n at h
    have h1 : natOfBytes b < 256 ^ 37 := hb ▸ natOfBytes_lt b
    rw [natOfBytes_cons, hb] at hN
    have h2 : (0x80 : Byte).toNat = 128 := rfl
    rw [h2] at hN
    have lo : 18 * 58 ^ 51 ≤ n := by norm_num at hN h1 ⊢; omega
    have hi : n < 20 * 58 ^ 51 := by norm_num at hN h1 ⊢; omega
    have e : base58Encode (decText n) = .ok w := h
    rw [encode_text n (by omega)] at e
    cases e
    have len : (Nat.digits 58 n).length = 52 := by
      have a : (Nat.digits 58 n).length ≤ 52 := (Nat.digits_length_le_iff (by omega) n).2 (by
        rw [pow_succ]; omega)
      have b : 51 < (Nat.digits 58 n).length := (Nat.lt_digits_length_iff (by omega) n).2 (by omega)
      omega
    refine ⟨by simp [text58, len], ?_⟩
    have q : n / 58 ^ 51 = 18 ∨ n / 58 ^ 51 = 19 := by
      have a : 18 ≤ n / 58 ^ 51 := (Nat.le_div_iff_mul_le (by positivity)).2 lo
      have b : n / 58 ^ 51 < 20 := (Nat.div_lt_iff_lt_mul (by positivity)).2 hi
      omega
    have g := Nat.getD_digits n 51 (show 2 ≤ 58 by omega)
    have hh : (text58 n).head? = some (base58Alphabet.getD (n / 58 ^ 51) 0) := by
      unfold text58
      rw [List.head?_map, List.head?_reverse, List.getLast?_eq_getElem?, len]
      rw [List.getD_eq_getElem?_getD] at g
      cases hx : (Nat.digits 58 n)[51]? with
      | none => rw [List.getElem?_eq_none_iff] at hx; omega
      | some d =>
        rw [hx] at g
        simp only [Option.getD_some] at g
        rw [g]
        rcases q with q | q <;> rw [q] <;> rfl
    rw [hh]
    rcases q with q | q <;> rw [q]
    · left; decide +kernel
    · right; decide +kernel

/-! ## Which texts are accepted -/

theorem digits_zeros : ∀ l : List Nat, (∀ d ∈ l, d < 58) → ∃ k, l = Nat.digits 58 (Nat.ofDigits 58 l) ++ List.replicate k 0 := by
  intro l
  induction l with
  | nil => intro _; exact ⟨0, by simp⟩
  | cons a t ih =>
    intro h
    obtain ⟨k, hk⟩ := ih fun d hd => h d (by simp [hd])
    rw [Nat.ofDigits_cons]
    generalize hm : Nat.ofDigits 58 t = m at hk
    by_cases hz : a ≠ 0 ∨ m ≠ 0
    · refine ⟨k, ?_⟩
      rw [Nat.digits_add 58 (by omega) a m (h a (by simp)) hz, List.cons_append, ← hk]
    · have ha : a = 0 := by omega
      have hm0 : m = 0 := by omega
      subst ha hm0
      refine ⟨k + 1, ?_⟩
      rw [hk]
      simp [List.replicate_succ]

theorem index_spec : ∀ n < 256, ∀ d, base58Index (BitVec.ofNat 8 n) = some d → d < 58 ∧ BitVec.ofNat 8 n = base58Alphabet.getD d 0 := by
  have h : ∀ n < 256, base58Index (BitVec.ofNat 8 n) = none ∨ ∃ d < 58, base58Index (BitVec.ofNat 8 n) = some d ∧
      BitVec.ofNat 8 n = base58Alphabet.getD d 0 := by decide +kernel
  intro n hn d hd
  rcases h n hn with e | ⟨d', h1, h2, h3⟩
  · rw [hd] at e; cases e
  · rw [hd] at h2
    cases h2
    exact ⟨h1, h3⟩

theorem index_some {c : Byte} {d : Nat} (h : base58Index c = some d) : d < 58 ∧ c = base58Alphabet.getD d 0 := by
  have := index_spec c.toNat c.isLt d
  rw [BitVec.ofNat_toNat, BitVec.setWidth_eq] at this
  exact this h

theorem mapM_index : ∀ (w : Bytes) (ds : List Nat), w.mapM base58Index = some ds →
    (∀ d ∈ ds, d < 58) ∧ w = ds.map fun d => base58Alphabet.getD d 0 := by
  intro w
  induction w with
  | nil => intro ds h; cases h; simp
  | cons c w ih =>
    intro ds h
    rw [List.mapM_cons] at h
    cases hc : base58Index c with
    | none => rw [hc] at h; cases h
    | some d =>
      rw [hc] at h
      cases hw : w.mapM base58Index with
      | none => rw [hw] at h; cases h
      | some es =>
        rw [hw] at h
        cases h
        obtain ⟨h1, h2⟩ := ih es hw
        obtain ⟨h3, h4⟩ := index_some hc
        refine ⟨fun x hx => ?_, by rw [List.map_cons, ← h4, ← h2]⟩
        rcases List.mem_cons.1 hx with rfl | hx
        · exact h3
        · exact h1 x hx

theorem setString_zeros (z n : Nat) : setString (List.replicate z 0x30 ++ decText n) = some (n : Int) := by
  cases z with
  | zero => exact setString_decText n
  | succ z =>
    have h : decNat (List.replicate (z + 1) 0x30 ++ decText n) = some n := by
      have hn := decNat_decText n
      unfold decNat at hn ⊢
      rw [if_neg (decText_ne_nil n)] at hn
      rw [if_neg (by simp)]
      cases hm : (decText n).mapM decDigit with
      | none => rw [hm] at hn; cases hn
      | some ds =>
        rw [hm] at hn
        have : ∀ z, (List.replicate z (0x30 : Byte) ++ decText n).mapM decDigit = some (List.replicate z 0 ++ ds) := by
          intro z
          induction z with
          | zero => simpa using hm
          | succ z ih =>
            rw [List.replicate_succ, List.cons_append, List.mapM_cons, ih]
            rfl
        rw [this]
        simp only [Option.map_some, Option.some.injEq] at hn ⊢
        rw [List.reverse_append, List.reverse_replicate, Nat.ofDigits_append, hn]
        have z0 : ∀ k, Nat.ofDigits 10 (List.replicate k 0) = 0 := by
          intro k
          induction k with
          | zero => rfl
          | succ k ih => rw [List.replicate_succ, Nat.ofDigits_cons, ih]
        rw [z0]
        simp
    rw [List.replicate_succ, List.cons_append] at h ⊢
    unfold setString
    split
    · rename_i e; simp at e
    · rename_i e; simp at e
    · rw [h]; rfl

theorem decode_iff (w : Bytes) (m : Int) : (∃ text, base58Decode w = .ok text ∧ setString text = some m) ↔
    ∃ n k : Nat, m = (n : Int) ∧ w ≠ [] ∧ w = List.replicate k 0x31 ++ text58 n := by
  have one : base58Alphabet.getD 0 0 = 0x31 := by decide +kernel
  constructor
  · rintro ⟨text, h, hs⟩
    unfold base58Decode at h
    by_cases hw : w = []
    · rw [if_pos hw] at h; cases h; cases hs
    rw [if_neg hw] at h
    cases hm : w.mapM base58Index with
    | none => simp [hm] at h
    | some ds =>
      simp only [hm, Res.ok.injEq] at h
      rw [← h, setString_zeros] at hs
      cases hs
      obtain ⟨h1, h2⟩ := mapM_index w ds hm
      obtain ⟨k, hk⟩ := digits_zeros ds.reverse (by simpa using h1)
      refine ⟨_, k, rfl, hw, ?_⟩
      have : ds = List.replicate k 0 ++ (Nat.digits 58 (Nat.ofDigits 58 ds.reverse)).reverse := by
        have := congrArg List.reverse hk
        simpa using this
      unfold text58
      conv_lhs => rw [h2, this, List.map_append, List.map_replicate, one]
  · rintro ⟨n, k, rfl, hw, e⟩
    have hm : w.mapM base58Index = some (List.replicate k 0 ++ (Nat.digits 58 n).reverse) := by
      have : w = (List.replicate k 0 ++ (Nat.digits 58 n).reverse).map fun d => base58Alphabet.getD d 0 := by
        rw [e, List.map_append, List.map_replicate, one]; rfl
      rw [this]
      apply mapM_eq_some_of
      intro d hd
      apply base58_index
      rcases List.mem_append.1 hd with hd | hd
      · rw [List.eq_of_mem_replicate hd]; omega
      · exact Nat.digits_lt_base (by omega) (List.mem_reverse.1 hd)
    unfold base58Decode
    rw [if_neg hw, hm]
    refine ⟨_, rfl, ?_⟩
    rw [setString_zeros, List.reverse_append, List.reverse_reverse, List.reverse_replicate, Nat.ofDigits_append, Nat.ofDigits_digits]
    have z0 : ∀ k, Nat.ofDigits 58 (List.replicate k 0) = 0 := by
      intro k
      induction k with
      | zero => rfl
      | succ k ih => rw [List.replicate_succ, Nat.ofDigits_cons, ih]
    rw [z0]
    simp

/-- **C151** (partial) The texts that `WIF2Key` accepts, exactly: any number of `1`, then in base 58 a first byte other than 0, the
32 bytes of the scalar, a last byte and the first four bytes of the double SHA-256 of all that. Missing: there is more than one
text for a key, see below. -/
theorem C151_texts_partial (E : Ext) (w : Bytes) (k : PrivateKey) : wif2Key E fullWif w = .ok k ↔
    ∃ (j : Nat) (v : Byte) (D : Bytes) (t : Byte), v ≠ 0 ∧ D.length = 32 ∧
      w = List.replicate j 0x31 ++
        text58 (natOfBytes ((v :: D ++ [t]) ++ (Scrypt.sha256 (Scrypt.sha256 (v :: D ++ [t]))).take 4)) ∧
      k = .ec .ecdsa (constructPrivateKey E D Curves.p256) := by
  rw [C25_wif_accepts_iff_partial]
  constructor
  · rintro ⟨text, n, v, D, t, sum, h1, h2, h3, h4, h5, h6, h7⟩
    obtain ⟨m, j, rfl, -, e⟩ := (decode_iff w n).1 ⟨text, h1, h2⟩
    rw [Int.natAbs_natCast] at h3
    refine ⟨j, v, D, t, ?_, h4, ?_, h7⟩
    · rintro rfl
      have := byteLen_le_iff.2 (show m < 256 ^ 37 by
        rw [← natOfBytes_bytesOfNat m, h3, List.cons_append, natOfBytes_cons]
        have hb := natOfBytes_lt (D ++ [t] ++ sum)
        simp only [List.length_append, h4, h5, List.length_singleton] at hb
        simpa using hb)
      have hl := congrArg List.length h3
      rw [bytesOfNat_length] at hl
      simp [h4, h5] at hl
      omega
    · rw [e, ← natOfBytes_bytesOfNat m, h3, h6]
      rfl
  · rintro ⟨j, v, D, t, hv, h4, e, h7⟩
    have hw : w ≠ [] := by
      rintro rfl
      have hl := congrArg List.length e
      simp only [List.length_nil, List.length_append, text58, List.length_map, List.length_reverse] at hl
      have := Nat.digits_ne_nil_iff_ne_zero (b := 58) (n := natOfBytes ((v :: D ++ [t]) ++ (Scrypt.sha256 (Scrypt.sha256 (v :: D ++ [t]))).take 4))
      have hb := bytesOfNat_natOfBytes_cons v hv (D ++ [t] ++ (Scrypt.sha256 (Scrypt.sha256 (v :: D ++ [t]))).take 4)
      have hz : natOfBytes ((v :: D ++ [t]) ++ (Scrypt.sha256 (Scrypt.sha256 (v :: D ++ [t]))).take 4) ≠ 0 := by
        intro hz
        simp only [List.cons_append] at hz hb
        rw [hz] at hb
        have := congrArg List.length hb
        simp [bytesOfNat, byteLen, beFix_length] at this
      have := List.length_pos_of_ne_nil (this.2 hz)
      omega
    obtain ⟨text, h1, h2⟩ := (decode_iff w _).2 ⟨_, j, rfl, hw, e⟩
    refine ⟨text, _, v, D, t, _, h1, h2, ?_, h4, checksum_length C151_lawful _, rfl, h7⟩
    rw [Int.natAbs_natCast]
    exact bytesOfNat_natOfBytes_cons v hv _

/-- **C151** is false of the code: `1` may be put before an accepted text any number of times. -/
theorem C151_ones_fails (E : Ext) (w : Bytes) (k : PrivateKey) (h : wif2Key E fullWif w = .ok k) (n : Nat) :
    wif2Key E fullWif (List.replicate n 0x31 ++ w) = .ok k := by
  rw [C151_texts_partial] at h ⊢
  obtain ⟨j, v, D, t, hv, hD, e, hk⟩ := h
  exact ⟨n + j, v, D, t, hv, hD, by rw [e, ← List.append_assoc, List.replicate_append_replicate], hk⟩

/-! ## The hypotheses are met -/

/-- The text of the private key 1, as in other wallets. -/
example : text58 (natOfBytes (wifBytes fullWif (wifPayload 1))) =
    ("KwDiBf89QgGbjEhKnhXJuH7LrciVrZi3qYjgd9M7rFU73sVHnoWn".toList.map fun c => BitVec.ofNat 8 c.toNat) := by decide +kernel

/-- It is accepted, and so is a longer text. -/
example (E : Ext) : ∃ w k, w.length = 52 ∧ wif2Key E fullWif w = .ok k ∧ wif2Key E fullWif (0x31 :: w) = .ok k := by
  have h : wif2Key E fullWif (text58 (natOfBytes (wifBytes fullWif (wifPayload 1)))) =
      .ok (.ec .ecdsa (constructPrivateKey E (beFix 32 1) Curves.p256)) :=
    (C151_texts_partial E _ _).2 ⟨0, 0x80, beFix 32 1, 0x01, by decide, beFix_length _ _, by simp only [List.replicate_zero, List.nil_append]; rfl, rfl⟩
  have hl : (text58 (natOfBytes (wifBytes fullWif (wifPayload 1)))).length = 52 := by decide +kernel
  generalize text58 (natOfBytes (wifBytes fullWif (wifPayload 1))) = w at h hl
  exact ⟨w, _, hl, h, C151_ones_fails E w _ h 1⟩

/-- `Key2WIF` succeeds. -/
example : ∃ x y, ∃ w, key2WIF refExt fullWif (.ec .ecdsa ⟨2, ⟨Curves.p256, x, y⟩⟩) = .ok w ∧ w.length = 52 := by
  have h : ValidPoint "" ⟨Curves.p256, (refExt.baseMult Curves.p256 2).1, (refExt.baseMult Curves.p256 2).2⟩ :=
    ⟨by decide +kernel, by decide +kernel, by decide +kernel⟩
  generalize hq : refExt.baseMult Curves.p256 2 = q at h
  refine ⟨q.1, q.2, ?_⟩
  obtain ⟨w, h1, _⟩ := (C24_wif_roundtrip refExt (Or.inl rfl) fullWif C151_lawful).1 2 q.1 q.2 (by decide) hq.symm
    ⟨Or.inl rfl, (by decide +kernel : Curves.p256 ∈ Curves.all ""),
      (by decide +kernel : 2 < 256 ^ Curves.p256.byteSize), hq.symm, h⟩
  exact ⟨w, h1, (C151_form _ _ _ h1).1⟩

end Verif.Props
