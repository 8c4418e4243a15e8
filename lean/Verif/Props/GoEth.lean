import Verif.Model.GoEth
import Verif.Props.GoCompactSign
/-!
# C156: what is assumed of go-ethereum holds of its code on btcec
-/
namespace Verif.Props
open Verif.Keypair Verif.Signature Verif.Spec Verif.Spec.ECDSA

/-- The numbers in a compact signature are those of `signRFC6979`. -/
theorem signCompact_numbers {ops : CurveOps} {nonce : ℕ → Bytes → ℕ} {priv : ECPriv} {digest sig : Bytes}
    (h : GoCompact.signCompact ops nonce priv digest = .ok sig) :
    ∃ header r s, GoCompact.signNonce ops (nonce priv.D digest) priv.D digest = .ok (r, s) ∧
      sig = header :: (beFix 32 r ++ beFix 32 s) := by
  unfold GoCompact.signCompact at h
  cases hs : GoCompact.signNonce ops (nonce priv.D digest) priv.D digest with
  | err m => rw [hs] at h; cases h
  | panic m => rw [hs] at h; cases h
  | ok p =>
    obtain ⟨r, s⟩ := p
    rw [hs] at h
    obtain ⟨j, e, -⟩ := search_sound ops priv.pub r s digest sig 4 0 (by omega) h
    exact ⟨_, r, s, rfl, e⟩

/-- `signRFC6979` makes ECDSA signatures. -/
theorem signNonce_signed (ops : CurveOps) (hops : ops.Lawful (Curves.secp256k1 "") 0) (k d : ℕ) (digest : Bytes)
    (h0 : 0 < k) (hlt : k < (Curves.secp256k1 "").N) [Fact (Curves.secp256k1 "").P.Prime]
    (G : Pt (Curves.secp256k1 "") 0) (hG : xy G = ((Curves.secp256k1 "").Gx, (Curves.secp256k1 "").Gy)) (r s : ℕ)
    (h : GoCompact.signNonce ops k d digest = .ok (r, s)) :
    Signed G d (bits2int (Curves.secp256k1 "").N digest) r s := by
  have hg : GoodCurve (Curves.secp256k1 "") 0 := good_k1 ""
  have hNp : (Curves.secp256k1 "").N.Prime := hg.order_prime
  have hkN : k % (Curves.secp256k1 "").N ≠ 0 := by rw [Nat.mod_eq_of_lt hlt]; omega
  obtain ⟨g1, g2, g3, g4⟩ := signNonce_range h
  change r < (Curves.secp256k1 "").N at g2
  change 2 * s ≤ (Curves.secp256k1 "").N at g4
  have hsN : s < (Curves.secp256k1 "").N := by omega
  have hsc := low_scalar (d := d) (r := (xy (k • G)).1 % (Curves.secp256k1 "").N)
    (e := bits2int (Curves.secp256k1 "").N digest) hNp hkN
  unfold GoCompact.signNonce at h
  rw [C141_hash, hops.base G hG] at h
  change (if (xy (k • G)).1 % (Curves.secp256k1 "").N = 0 then _ else
    if (if (d * ((xy (k • G)).1 % (Curves.secp256k1 "").N) + bits2int (Curves.secp256k1 "").N digest) *
      GoECDSA.modInverse k (Curves.secp256k1 "").N % (Curves.secp256k1 "").N > (Curves.secp256k1 "").N / 2 then
      (Curves.secp256k1 "").N - (d * ((xy (k • G)).1 % (Curves.secp256k1 "").N) + bits2int (Curves.secp256k1 "").N digest) *
      GoECDSA.modInverse k (Curves.secp256k1 "").N % (Curves.secp256k1 "").N else
      (d * ((xy (k • G)).1 % (Curves.secp256k1 "").N) + bits2int (Curves.secp256k1 "").N digest) *
      GoECDSA.modInverse k (Curves.secp256k1 "").N % (Curves.secp256k1 "").N) = 0 then _ else
      Res.ok (_, _)) = Res.ok (r, s) at h
  have htlt := Nat.mod_lt ((d * ((xy (k • G)).1 % (Curves.secp256k1 "").N) + bits2int (Curves.secp256k1 "").N digest) *
    GoECDSA.modInverse k (Curves.secp256k1 "").N) hNp.pos
  generalize (d * ((xy (k • G)).1 % (Curves.secp256k1 "").N) + bits2int (Curves.secp256k1 "").N digest) *
    GoECDSA.modInverse k (Curves.secp256k1 "").N % (Curves.secp256k1 "").N = t at *
  by_cases hr0 : (xy (k • G)).1 % (Curves.secp256k1 "").N = 0
  · rw [if_pos hr0] at h; cases h
  rw [if_neg hr0] at h
  by_cases hb : t > (Curves.secp256k1 "").N / 2
  · rw [if_pos hb] at h
    by_cases hz : (Curves.secp256k1 "").N - t = 0
    · rw [if_pos hz] at h; cases h
    rw [if_neg hz] at h
    have hrs := Res.ok.inj h
    have e1 : (xy (k • G)).1 % (Curves.secp256k1 "").N = r := congrArg Prod.fst hrs
    have e2 : (Curves.secp256k1 "").N - t = s := congrArg Prod.snd hrs
    have hneg : ((Curves.secp256k1 "").N - k) • G = -(k • G) := by
      rw [eq_neg_iff_add_eq_zero, ← add_smul, Nat.sub_add_cancel hlt.le]
      exact Verif.Affine.order_kills hg.card _
    refine ⟨(Curves.secp256k1 "").N - k, by omega, by omega, by rw [hneg, xy_neg_fst]; exact e1.symm, g1, g3, hsN, ?_⟩
    rw [e1, Nat.add_comm] at hsc
    rw [← hsc, ← e2]
    generalize (Curves.secp256k1 "").N = N at *
    obtain ⟨u, rfl⟩ : ∃ u, N = k + u := ⟨N - k, by omega⟩
    obtain ⟨v, hv⟩ : ∃ v, k + u = t + v := ⟨k + u - t, by omega⟩
    have : (k + u - k) * (k + u - t) + (k + u) * t = k * t + (k + u) * u := by
      rw [show k + u - k = u by omega, show k + u - t = v by omega]
      nlinarith
    calc (k + u - k) * (k + u - t) % (k + u) = ((k + u - k) * (k + u - t) + (k + u) * t) % (k + u) := by
          rw [Nat.add_mul_mod_self_left]
      _ = k * t % (k + u) := by rw [this, Nat.add_mul_mod_self_left]
  · rw [if_neg hb] at h
    by_cases hz : t = 0
    · rw [if_pos hz] at h; cases h
    rw [if_neg hz] at h
    have hrs := Res.ok.inj h
    have e1 : (xy (k • G)).1 % (Curves.secp256k1 "").N = r := congrArg Prod.fst hrs
    have e2 : t = s := congrArg Prod.snd hrs
    refine ⟨k, h0, hlt, e1.symm, g1, g3, hsN, ?_⟩
    rw [e1, Nat.add_comm] at hsc
    rw [← hsc, e2]

/-! ## C156 -/

/-- **C156** `crypto.Sign` signs digests of 32 bytes; the result is `r ‖ s ‖ v`, an ECDSA signature with low `s`, where `27 + v`
is the header with which the key is recovered, so that `v` is from 0 to 3. -/
theorem C156_sign (ops : CurveOps) (hops : ops.Lawful (Curves.secp256k1 "") 0) (nonce : ℕ → Bytes → ℕ)
    (hn : ∀ d h, 0 < nonce d h ∧ nonce d h < (Curves.secp256k1 "").N) (priv : ECPriv) (digest sig : Bytes)
    (h : GoCompact.ethSign ops nonce digest priv = .ok sig) :
    digest.length = 32 ∧ sig.length = 65 ∧ (sig.getD 64 0).toNat ≤ 3 ∧
    GoCompact.recoverCompact ops ((sig.getD 64 0 + 27) :: sig.take 64) digest = .ok (priv.pub.x, priv.pub.y) ∧
    ∀ [Fact (Curves.secp256k1 "").P.Prime] (G : Pt (Curves.secp256k1 "") 0),
    xy G = ((Curves.secp256k1 "").Gx, (Curves.secp256k1 "").Gy) →
    Signed G priv.D (bits2int (Curves.secp256k1 "").N digest) (rOf sig) (sOf sig) ∧
      2 * sOf sig ≤ (Curves.secp256k1 "").N := by
  unfold GoCompact.ethSign at h
  by_cases hd : digest.length = 32
  swap
  · rw [if_pos hd] at h; cases h
  rw [if_neg (not_not.2 hd)] at h
  cases hc : GoCompact.signCompact ops nonce priv digest with
  | err m => rw [hc] at h; cases h
  | panic m => rw [hc] at h; cases h
  | ok c =>
    rw [hc] at h
    have hsig : c.drop 1 ++ [c.getD 0 0 - 27] = sig := Res.ok.inj h
    obtain ⟨-, h2, h3, h4⟩ := C154_recovers ops nonce priv digest c hc
    obtain ⟨header, r, s, hs, rfl⟩ := signCompact_numbers hc
    obtain ⟨g1, g2, g3, g4⟩ := signNonce_range hs
    have hN := N_lt
    have hr : r < 256 ^ 32 := lt_trans g2 hN
    have hs' : s < 256 ^ 32 := by generalize (256 : ℕ) ^ 32 = M at *; generalize GoCompact.k1.N = N at *; omega
    simp only [List.getD_cons_zero, List.drop_succ_cons, List.drop_zero] at hsig h2
    have hl : (beFix 32 r ++ beFix 32 s).length = 64 := by simp
    have e64 : sig.getD 64 0 = header - 27 := by
      rw [← hsig, List.getD_eq_getElem?_getD, List.getElem?_append_right (by omega), hl]; rfl
    have et : sig.take 64 = beFix 32 r ++ beFix 32 s := by rw [← hsig, List.take_left' hl]
    have er : rOf sig = r := by
      unfold rOf
      rw [← hsig, List.append_assoc, List.take_left' (beFix_length _ _), natOfBytes_beFix_of_lt hr]
    have es : sOf sig = s := by
      unfold sOf
      rw [← hsig, List.append_assoc, List.drop_left' (beFix_length _ _), List.take_left' (beFix_length _ _),
        natOfBytes_beFix_of_lt hs']
    refine ⟨hd, by rw [← hsig]; simp, ?_, ?_, fun {_} G hG => ?_⟩
    · rw [e64]
      have : ∀ x ∈ ([27, 28, 29, 30] : List Byte), (x - 27).toNat ≤ 3 := by decide +kernel
      exact this header h2
    · rw [e64, et, BitVec.sub_add_cancel]; exact h4
    · rw [er, es]
      exact ⟨signNonce_signed ops hops _ _ digest (hn _ _).1 (hn _ _).2 G hG r s hs, g4⟩

/-- **C156** `crypto.VerifySignature` is ECDSA verification with low `s`. -/
theorem C156_verify (L : GoECDSA.Ext) (hL : GoCurve L (Curves.secp256k1 "") 0) (pub : ECPub) (digest sig : Bytes)
    (hl : sig.length = 64) [Fact (Curves.secp256k1 "").P.Prime] (G Q : Pt (Curves.secp256k1 "") 0)
    (hG : xy G = ((Curves.secp256k1 "").Gx, (Curves.secp256k1 "").Gy)) (hQ0 : Q ≠ 0) (hQ : xy Q = (pub.x, pub.y)) :
    GoCompact.ethVerify L (fromECDSAPub pub) digest sig = true ↔
      Accepts G Q (bits2int (Curves.secp256k1 "").N digest) (rOf sig) (sOf sig) ∧
        2 * sOf sig ≤ (Curves.secp256k1 "").N := by
  have hg : GoodCurve (Curves.secp256k1 "") 0 := good_k1 ""
  obtain ⟨hon, hx, hy⟩ := Affine.xy_onCurve Q hQ0
  rw [hQ] at hon hx hy
  simp only at hon hx hy
  have hP256 : (Curves.secp256k1 "").P < 256 ^ 32 := by
    change Signature.k1.P < 256 ^ 32
    decide +kernel
  have e1 : natOfBytes (((fromECDSAPub pub).drop 1).take 32) = pub.x := by
    unfold fromECDSAPub
    rw [List.drop_succ_cons, List.drop_zero, List.take_left' (beFix_length _ _)]
    exact natOfBytes_beFix_of_lt (lt_trans hx hP256)
  have e2 : natOfBytes ((fromECDSAPub pub).drop 33) = pub.y := by
    unfold fromECDSAPub
    rw [List.drop_succ_cons, List.drop_left' (beFix_length _ _)]
    exact natOfBytes_beFix_of_lt (lt_trans hy hP256)
  have e3 : (fromECDSAPub pub).length = 65 := by unfold fromECDSAPub; simp
  have e4 : (fromECDSAPub pub).getD 0 0 = 4 := rfl
  have es : natOfBytes (sig.drop 32) = sOf sig := by
    unfold sOf; rw [List.take_of_length_le (by rw [List.length_drop]; omega)]
  have er : natOfBytes (sig.take 32) = rOf sig := rfl
  have hcur : pub.y * pub.y % (Curves.secp256k1 "").P = (pub.x ^ 3 + (Curves.secp256k1 "").B) % (Curves.secp256k1 "").P := by
    rw [onCurve_zero_iff] at hon
    generalize (Curves.secp256k1 "").P = P at hon ⊢
    generalize (Curves.secp256k1 "").B = B at hon ⊢
    exact_mod_cast hon
  unfold GoCompact.ethVerify
  simp only [e1, e2, e3, e4, es, er]
  rw [if_neg (by rw [hl]; simp), if_neg (by simp), if_neg (by
    rintro (a | a | a)
    · exact absurd hx (not_lt.2 a)
    · exact absurd hy (not_lt.2 a)
    · exact a hcur)]
  have hv := C141_verify L ⟨Curves.secp256k1 "", pub.x, pub.y⟩ 0 hg hL G Q hG hQ0 hQ digest (rOf sig) (sOf sig)
  have hodd : (Curves.secp256k1 "").N % 2 = 1 := by
    change Signature.k1.N % 2 = 1
    decide +kernel
  by_cases hs : sOf sig > (Curves.secp256k1 "").N / 2
  · rw [if_pos hs]
    constructor
    · intro h; cases h
    · rintro ⟨-, h⟩; exfalso; generalize (Curves.secp256k1 "").N = N at *; omega
  · rw [if_neg hs]
    have h2 : 2 * sOf sig ≤ (Curves.secp256k1 "").N := by
      clear hv; generalize (Curves.secp256k1 "").N = N at *; omega
    exact ⟨fun h => ⟨hv.1 h, h2⟩, fun h => hv.2 h.1⟩

/-- `E` with the code of go-ethereum on btcec, and compact signatures of btcec. -/
def withEth (E : Signature.Ext) (ops : CurveOps) (nonce : ℕ → Bytes → ℕ) (L : GoECDSA.Ext) : Signature.Ext :=
  { withBtcecSign E ops nonce with
    ethSign := GoCompact.ethSign ops nonce
    ethVerify := GoCompact.ethVerify L }

/-- **C156** All that is assumed of the external parts of package signature holds with that code. -/
theorem C156_lawful (nonce : ℕ → Bytes → ℕ) (hn : ∀ d h, 0 < nonce d h ∧ nonce d h < (Curves.secp256k1 "").N)
    (L : GoECDSA.Ext) (hL : GoCurve L (Curves.secp256k1 "") 0) : (withEth refSig k1Ops nonce L).Lawful :=
  { C154_lawful nonce with
    eth_sign := fun priv digest sig _ h => by
      obtain ⟨h1, h2, -, -, h5⟩ := C156_sign k1Ops k1Ops_lawful nonce hn priv digest sig h
      exact ⟨h1, h2, fun {_} G hG => h5 G hG⟩
    eth_verify := fun pub digest sig _ hl _ G Q hG hQ0 hQ => C156_verify L hL pub digest sig hl G Q hG hQ0 hQ }

/-! ## Non-vacuity -/

/-- Curve methods that meet GoCurve. -/
def k1Go : GoECDSA.Ext := ⟨fun _ => k1Ops, fun _ => none, fun _ => none, id, fun _ _ _ => []⟩

theorem k1Go_curve : GoCurve k1Go (Curves.secp256k1 "") 0 :=
  ⟨k1Ops_lawful, fun _ h => (nomatch h), fun _ h => (nomatch h)⟩

/-- A nonce in the range and a digest for which `crypto.Sign` returns a signature. -/
example : ∃ sig, GoCompact.ethSign k1Ops (fun _ _ => 7) (zeros 32) (keyOn (Curves.secp256k1 "") 5) = .ok sig := by
  have := (good_k1 "").fact
  obtain ⟨G, hG⟩ := (good_k1 "").exists_G
  have hp : EthPair (keyOn (Curves.secp256k1 "") 5) :=
    ⟨"", (keyOn_pair (Curves.secp256k1 "") (by decide) 5 (by decide +kernel)).2⟩
  have key := (C154_succeeds_iff k1Ops k1Ops_lawful (fun _ _ => 7) (keyOn (Curves.secp256k1 "") 5)
    (zeros 32) hp (by decide) (show 7 < Signature.k1.N by decide +kernel) G hG).1.2
  have hx : xy (7 • G) = k1Ops.baseMult 7 := (k1Ops_lawful.base G hG 7).symm
  simp only [hx] at key
  obtain ⟨b, hb⟩ := key (by decide +kernel)
  refine ⟨b.drop 1 ++ [b.getD 0 0 - 27], ?_⟩
  unfold GoCompact.ethSign
  rw [if_neg (by simp [zeros]), hb]
  rfl

end Verif.Props
