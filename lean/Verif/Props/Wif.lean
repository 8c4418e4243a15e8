import Verif.Props.KeyGen
import Verif.Lemmas.Wif
/-!
# WIF export and import (C24, C25, C65)
-/
namespace Verif.Props
open Verif Verif.EC Verif.Keypair Verif.Spec

/-- The WIF payload of a scalar: version 0x80, 32-byte scalar, compression byte 1. -/
def wifPayload (D : Nat) : Bytes := 0x80 :: (beFix 32 D ++ [0x01])

/-- The bytes that are base58-encoded: payload and checksum (first four bytes of the double SHA-256). -/
def wifBytes (W : WifExt) (payload : Bytes) : Bytes := payload ++ (W.sha256 (W.sha256 payload)).take 4

theorem bytesOfNat_natOfBytes_cons (x : Byte) (hx : x ≠ 0) (b : Bytes) :
    bytesOfNat (natOfBytes (x :: b)) = x :: b := by
  have hlen : byteLen (natOfBytes (x :: b)) = b.length + 1 := by
    have h1 : byteLen (natOfBytes (x :: b)) ≤ b.length + 1 := byteLen_le_iff.2 (natOfBytes_lt (x :: b))
    have h2 : ¬ byteLen (natOfBytes (x :: b)) ≤ b.length := by
      rw [byteLen_le_iff, natOfBytes_cons]
      have : 1 ≤ x.toNat := by
        rcases Nat.eq_zero_or_pos x.toNat with h | h
        · exact absurd (BitVec.eq_of_toNat_eq (by simpa using h)) hx
        · exact h
      have := Nat.mul_le_mul_right (256 ^ b.length) this
      omega
    omega
  unfold bytesOfNat
  rw [hlen]
  exact beFix_natOfBytes (x :: b)

theorem checksum_length {W : WifExt} (hW : W.Lawful) (b : Bytes) : (W.checksum b).length = 4 := by
  unfold WifExt.checksum
  rw [List.length_take, hW.sha_length]; rfl

/-- What the two importers make of an exported payload with a correct checksum. -/
theorem import_payload (E : Ext) {W : WifExt} (hW : W.Lawful) (v t : Byte) (hv : v ≠ 0) (b : Bytes) (hb : b.length = 32) :
    ∃ w, W.b58enc (decText (natOfBytes (wifBytes W (v :: (b ++ [t]))))) = .ok w ∧
      wif2Key E W w = .ok (.ec .ecdsa (constructPrivateKey E b Curves.p256)) ∧
      getP256KeyPairFromWIF E W w = .ok (.ec .ecdsa (constructPrivateKey E b Curves.p256)) := by
  have hbytes : bytesOfNat (natOfBytes (wifBytes W (v :: (b ++ [t])))) = wifBytes W (v :: (b ++ [t])) :=
    bytesOfNat_natOfBytes_cons v hv _
  have hlen : (wifBytes W (v :: (b ++ [t]))).length = 38 := by
    have := checksum_length hW (v :: (b ++ [t]))
    unfold WifExt.checksum at this
    simp only [wifBytes, List.length_append, this, List.length_cons, hb, List.length_nil]
  have hpos : 0 < natOfBytes (wifBytes W (v :: (b ++ [t]))) := by
    rcases Nat.eq_zero_or_pos (natOfBytes (wifBytes W (v :: (b ++ [t])))) with h | h
    · rw [h] at hbytes
      rw [← hbytes] at hlen
      simp [bytesOfNat, byteLen_zero, beFix] at hlen
    · exact h
  obtain ⟨w, h1, h2⟩ := hW.b58 _ hpos
  have hpl : (v :: (b ++ [t])).length = 34 := by simp [hb]
  have ht : (wifBytes W (v :: (b ++ [t]))).take 34 = v :: (b ++ [t]) := by
    unfold wifBytes; rw [List.take_left' hpl]
  have hd : (wifBytes W (v :: (b ++ [t]))).drop 34 = W.checksum (v :: (b ++ [t])) := by
    unfold wifBytes; rw [List.drop_left' hpl]; rfl
  have hk : ((wifBytes W (v :: (b ++ [t]))).take 33).drop 1 = b := by
    unfold wifBytes
    rw [List.cons_append, List.take_succ_cons, List.drop_succ_cons, List.drop_zero, List.append_assoc,
      List.take_left' hb]
  refine ⟨w, h1, ?_, ?_⟩
  · unfold wif2Key
    rw [h2]
    simp only [setString_decText, Int.natAbs_natCast, hbytes]
    rw [if_neg (by rw [hlen]; decide), ht, hd, if_neg (by simp), hk]
  · unfold getP256KeyPairFromWIF
    rw [h2]
    simp only [setString_decText, Int.natAbs_natCast, hbytes]
    rw [if_neg (by rw [hlen]; decide), hlen]
    simp only [Nat.reduceSub]
    rw [ht, hd, if_neg (by simp), if_neg (by decide), hk]

/-- **C24**: every ECDSA P-256 private key exports to the base58 form of the documented WIF bytes, and
both importers return exactly that key. Every other valid key is refused with an error. -/
theorem C24_wif_roundtrip (E : Ext) (hE : GoodName E.k1name) (W : WifExt) (hW : W.Lawful) :
    (∀ D x y, D < 2 ^ 256 → (x, y) = E.baseMult Curves.p256 D →
      ValidPrivate E (.ec .ecdsa ⟨D, ⟨Curves.p256, x, y⟩⟩) →
      ∃ w, key2WIF E W (.ec .ecdsa ⟨D, ⟨Curves.p256, x, y⟩⟩) = .ok w ∧
        W.b58enc (decText (natOfBytes (wifBytes W (wifPayload D)))) = .ok w ∧
        wif2Key E W w = .ok (.ec .ecdsa ⟨D, ⟨Curves.p256, x, y⟩⟩) ∧
        getP256KeyPairFromWIF E W w = .ok (.ec .ecdsa ⟨D, ⟨Curves.p256, x, y⟩⟩)) ∧
    (∀ k, ValidPrivate E k → (∀ priv, k = .ec .ecdsa priv → priv.pub.curve ≠ Curves.p256) →
      ∃ m, key2WIF E W k = .err m) := by
  constructor
  · intro D x y hD hxy hv
    obtain ⟨data, hs, hf, _⟩ := C17_private_roundtrip E hE _ hv
    obtain ⟨w, h1, h2, h3⟩ := import_payload E hW 0x80 0x01 (by decide) (beFix 32 D) (beFix_length _ _)
    have hkey : constructPrivateKey E (beFix 32 D) Curves.p256 = ⟨D, ⟨Curves.p256, x, y⟩⟩ := by
      simp only [constructPrivateKey, natOfBytes_beFix_of_lt (show D < 256 ^ 32 by simpa using hD), ← hxy]
    rw [hkey] at h2 h3
    refine ⟨w, ?_, h1, h2, h3⟩
    unfold key2WIF
    rw [hs]
    cases hf with
    | ecdsa _ l _ _ _ hl =>
      have hl2 : l = 2 := CurveLabel.unique hl .p256
      subst hl2
      simp only [p256_byteSize]
      rw [if_neg (by simp [sec1Compressed])]
      rw [show (List.drop 2 (18 :: 2 :: (beFix 32 D ++ sec1Compressed 32 x y))) =
        beFix 32 D ++ sec1Compressed 32 x y from rfl, List.take_left' (beFix_length 32 D)]
      exact h1
  · intro k hv hk
    obtain ⟨data, hs, hf, _⟩ := C17_private_roundtrip E hE _ hv
    refine ⟨"only ECDSA P-256 keys support WIF", ?_⟩
    unfold key2WIF
    rw [hs]
    apply if_pos
    cases hf with
    | ecdsa c l D x y hl =>
      right; right
      have : c ≠ Curves.p256 := hk _ rfl
      intro e
      simp only [List.getD_cons_succ, List.getD_cons_zero] at e
      rw [e] at hl
      exact this (CurveLabel.curve_unique hl .p256)
    | sm2 => right; left; exact (by decide : (0x13 : Byte) ≠ 0x12)
    | ed => right; left; exact (by decide : (0x14 : Byte) ≠ 0x12)
    | eth => right; left; exact (by decide : (0x15 : Byte) ≠ 0x12)

/-- **C25 (partial)**: `WIF2Key` succeeds exactly when the decoded number has 38 bytes of which the last
four are the checksum of the first 34, and the key is the one whose scalar is in bytes 1 to 32.
Missing: the version byte and the compression byte are not checked (`C25_version_unchecked`). -/
theorem C25_wif_accepts_iff_partial (E : Ext) (W : WifExt) (w : Bytes) (k : PrivateKey) :
    wif2Key E W w = .ok k ↔
      ∃ text n v D t sum, W.b58dec w = .ok text ∧ setString text = some n ∧
        bytesOfNat n.natAbs = v :: (D ++ [t]) ++ sum ∧ D.length = 32 ∧ sum.length = 4 ∧
        sum = (W.sha256 (W.sha256 (v :: (D ++ [t])))).take 4 ∧
        k = .ec .ecdsa (constructPrivateKey E D Curves.p256) := by
  constructor
  · intro h
    unfold wif2Key at h
    split at h
    · simp at h
    · simp at h
    · rename_i text ht
      split at h
      · simp at h
      · rename_i n hn
        simp only at h
        split at h
        · simp at h
        · rename_i hlen
          split at h
          · simp at h
          · rename_i hsum
            simp only [not_not, Res.ok.injEq] at h hlen hsum
            have hl : (bytesOfNat n.natAbs).length = 38 := by omega
            generalize hbuf : bytesOfNat n.natAbs = buf at h hlen hsum hl
            cases buf with
            | nil => simp at hl
            | cons v r =>
              simp only [List.length_cons] at hl
              have e1 : (r.take 33) = r.take 32 ++ [r.getD 32 0] := by
                rw [List.take_succ_eq_append_getElem (by omega)]
                simp [List.getD_eq_getElem?_getD, List.getElem?_eq_getElem (show 32 < r.length by omega)]
              refine ⟨text, n, v, r.take 32, r.getD 32 0, r.drop 33, ht, hn, ?_, ?_, ?_, ?_, ?_⟩
              · rw [hbuf, ← e1]; simp
              · simp; omega
              · simp; omega
              · rw [← e1]
                exact hsum.symm
              · rw [← h]; rfl
  · rintro ⟨text, n, v, D, t, sum, h1, h2, h3, h4, h5, h6, rfl⟩
    have hpl : (v :: (D ++ [t])).length = 34 := by simp [h4]
    have hlen : (bytesOfNat n.natAbs).length = 38 := by rw [h3, List.length_append, hpl, h5]
    unfold wif2Key
    rw [h1]
    simp only [h2]
    rw [if_neg (by rw [hlen]; decide), h3, List.take_left' hpl, List.drop_left' hpl, h6,
      if_neg (by simp [WifExt.checksum])]
    rw [List.cons_append, List.take_succ_cons, List.drop_succ_cons, List.drop_zero, List.append_assoc,
      List.take_left' h4]

/-- The version and compression bytes are not checked: for every scalar there is an accepted string with
version byte 1 and compression byte 0, giving the same key as the proper WIF string. -/
theorem C25_version_unchecked (E : Ext) (W : WifExt) (hW : W.Lawful) (D : Nat) (hD : D < 2 ^ 256) :
    ∃ w, W.b58enc (decText (natOfBytes (wifBytes W (0x01 :: (beFix 32 D ++ [0x00]))))) = .ok w ∧
      wif2Key E W w = .ok (.ec .ecdsa (constructPrivateKey E (bytesOfNat D) Curves.p256)) := by
  obtain ⟨w, h1, h2, _⟩ := import_payload E hW 0x01 0x00 (by decide) (beFix 32 D) (beFix_length _ _)
  refine ⟨w, h1, ?_⟩
  rw [h2]
  simp only [constructPrivateKey, natOfBytes_bytesOfNat, natOfBytes_beFix_of_lt (show D < 256 ^ 32 by simpa using hD)]

/-- **C65 (partial)**: `GetP256KeyPairFromWIF` agrees with `WIF2Key` on every string `WIF2Key` accepts, and
panics exactly when the decoded number has fewer than four bytes, or four or five with a matching checksum. -/
theorem C65_wif_panics_iff_partial (E : Ext) (W : WifExt) (hdec : ∀ s m, W.b58dec s ≠ .panic m) (w : Bytes) :
    (∀ k, wif2Key E W w = .ok k → getP256KeyPairFromWIF E W w = .ok k) ∧
    ((∃ m, getP256KeyPairFromWIF E W w = .panic m) ↔
      ∃ text n, W.b58dec w = .ok text ∧ setString text = some n ∧
        ((bytesOfNat n.natAbs).length < 4 ∨ ∃ b : Bytes, b.length < 2 ∧
          bytesOfNat n.natAbs = wifBytes W b ∧ (wifBytes W b).length = b.length + 4)) := by
  constructor
  · intro k hk
    rw [C25_wif_accepts_iff_partial] at hk
    obtain ⟨text, n, v, D, t, sum, h1, h2, h3, h4, h5, h6, rfl⟩ := hk
    have hpl : (v :: (D ++ [t])).length = 34 := by simp [h4]
    have hlen : (bytesOfNat n.natAbs).length = 38 := by rw [h3, List.length_append, hpl, h5]
    unfold getP256KeyPairFromWIF
    rw [h1]
    simp only [h2]
    rw [if_neg (by rw [hlen]; decide), hlen]
    simp only [Nat.reduceSub]
    rw [h3, List.take_left' hpl, List.drop_left' hpl, h6, if_neg (by simp [WifExt.checksum]), if_neg (by decide)]
    rw [List.cons_append, List.take_succ_cons, List.drop_succ_cons, List.drop_zero, List.append_assoc,
      List.take_left' h4]
  · cases hd : W.b58dec w with
    | err m => simp [getP256KeyPairFromWIF, hd]
    | panic m => exact absurd hd (hdec w m)
    | ok text =>
      cases hs : setString text with
      | none => simp [getP256KeyPairFromWIF, hd, hs]
      | some n =>
        unfold getP256KeyPairFromWIF
        rw [hd]
        simp only [hs, Res.ok.injEq, exists_and_left, exists_eq_left', Option.some.injEq]
        generalize bytesOfNat n.natAbs = buf
        by_cases h4 : buf.length < 4
        · rw [if_pos h4]
          simp [h4]
        · rw [if_neg h4]
          by_cases hc : W.checksum (buf.take (buf.length - 4)) = buf.drop (buf.length - 4)
          · rw [if_neg (by simpa using hc)]
            have hbuf : buf = wifBytes W (buf.take (buf.length - 4)) := by
              unfold wifBytes
              conv_lhs => rw [← List.take_append_drop (buf.length - 4) buf]
              rw [← hc]; rfl
            by_cases h2 : buf.length - 4 < 2
            · rw [if_pos h2]
              simp only [Res.panic.injEq, exists_eq', true_iff]
              right
              refine ⟨buf.take (buf.length - 4), ?_, hbuf, ?_⟩
              · rw [List.length_take]; omega
              · rw [← hbuf, List.length_take]; omega
            · rw [if_neg h2]
              simp only [reduceCtorEq, exists_false, false_iff, not_or, not_exists, not_and]
              refine ⟨by omega, ?_⟩
              rintro b hb rfl
              omega
          · rw [if_pos (by simpa using hc)]
            simp only [reduceCtorEq, exists_false, false_iff, not_or, not_exists, not_and]
            refine ⟨by omega, ?_⟩
            rintro b hb rfl hlb
            apply hc
            rw [hlb, Nat.add_sub_cancel]
            unfold wifBytes
            rw [List.take_left, List.drop_left]; rfl

/-- `GetP256KeyPairFromWIF` panics on the base58 text of the number 1. -/
theorem C65_short_wif_panics (E : Ext) (W : WifExt) (hW : W.Lawful) :
    ∃ w m, W.b58enc (decText 1) = .ok w ∧ getP256KeyPairFromWIF E W w = .panic m := by
  obtain ⟨w, h1, h2⟩ := hW.b58 1 (by omega)
  refine ⟨w, "slice bounds out of range", h1, ?_⟩
  unfold getP256KeyPairFromWIF
  rw [h2]
  simp only [setString_decText, Int.natAbs_natCast]
  rw [if_pos (by decide +kernel)]

/-! ## Non-vacuity: base58 as written out, and a 32-byte stand-in for SHA-256 -/

def refWif : WifExt where
  sha256 b := beFix 32 (natOfBytes b % 2 ^ 255 * 7 + b.length)
  b58enc := base58Encode
  b58dec := base58Decode

theorem refWif_lawful : refWif.Lawful := ⟨fun _ => beFix_length _ _, base58_law⟩

example : ∃ x y, ∃ w, key2WIF refExt refWif (.ec .ecdsa ⟨2, ⟨Curves.p256, x, y⟩⟩) = .ok w ∧
    wif2Key refExt refWif w = .ok (.ec .ecdsa ⟨2, ⟨Curves.p256, x, y⟩⟩) := by
  have h : ValidPoint "" ⟨Curves.p256, (refExt.baseMult Curves.p256 2).1, (refExt.baseMult Curves.p256 2).2⟩ :=
    ⟨by decide +kernel, by decide +kernel, by decide +kernel⟩
  generalize hq : refExt.baseMult Curves.p256 2 = q at h
  refine ⟨q.1, q.2, ?_⟩
  obtain ⟨w, h1, _, h2, _⟩ := (C24_wif_roundtrip refExt (Or.inl rfl) refWif refWif_lawful).1 2 q.1 q.2 (by decide)
    hq.symm ⟨Or.inl rfl, (by decide +kernel : Curves.p256 ∈ Curves.all ""),
      (by decide +kernel : 2 < 256 ^ Curves.p256.byteSize), hq.symm, h⟩
  exact ⟨w, h1, h2⟩

end Verif.Props
