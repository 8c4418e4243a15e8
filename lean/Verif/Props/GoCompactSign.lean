import Verif.Model.GoCompactSign
import Verif.Props.GoCompact
/-!
# C154: compact signatures of btcec, written out

`SignCompact` checks its result by recovering the key from it. So the result verifies whatever the nonce; and for a key
pair the search does find a candidate.
-/
namespace Verif.Props
open Verif.Keypair Verif.Signature Verif.Spec Verif.Spec.ECDSA

theorem recoverChecked_ok {ops : CurveOps} {r s : ℕ} {msg : Bytes} {i : ℕ} {p : ℕ × ℕ}
    (h : GoCompact.recoverChecked ops r s msg i = .ok p) : GoCompact.recoverKey ops r s msg i = .ok p := by
  unfold GoCompact.recoverChecked at h
  simp only at h
  by_cases h1 : GoCompact.k1.N * (i / 2) + r ≥ GoCompact.k1.P
  · rw [if_pos h1] at h; cases h
  rw [if_neg h1] at h
  cases hd : GoCompact.decompress (GoCompact.k1.N * (i / 2) + r) (decide (i % 2 = 1)) with
  | none => rw [hd] at h; cases h
  | some ry =>
    rw [hd] at h
    simp only at h
    by_cases h2 : ops.mult (GoCompact.k1.N * (i / 2) + r, ry) GoCompact.k1.N ≠ (0, 0)
    · rw [if_pos h2] at h; cases h
    · rw [if_neg h2] at h; exact h

/-- The check of `N R` never fails. -/
theorem recoverChecked_eq (ops : CurveOps) (hops : ops.Lawful (Curves.secp256k1 "") 0) (r s : ℕ) (msg : Bytes) (i : ℕ) :
    GoCompact.recoverChecked ops r s msg i = GoCompact.recoverKey ops r s msg i := by
  have hg : GoodCurve (Curves.secp256k1 "") 0 := good_k1 ""
  have := hg.fact
  unfold GoCompact.recoverChecked
  simp only
  by_cases h1 : GoCompact.k1.N * (i / 2) + r ≥ GoCompact.k1.P
  · rw [if_pos h1]; unfold GoCompact.recoverKey; simp only; rw [if_pos h1]
  rw [if_neg h1]
  cases hd : GoCompact.decompress (GoCompact.k1.N * (i / 2) + r) (decide (i % 2 = 1)) with
  | none => unfold GoCompact.recoverKey; simp only; rw [if_neg h1, hd]
  | some ry =>
    simp only
    obtain ⟨hon, hry, -⟩ := (decompress_iff _ _ _).1 hd
    have hxy := Affine.xy_ofXY hg.ok hon (not_le.1 h1) hry
    rw [if_neg]
    rw [← hxy, hops.mult, not_not]
    rw [show GoCompact.k1.N • Affine.ofXY hg.ok hon = 0 from Verif.Affine.order_kills hg.card _]
    rfl

theorem recoverCompact_cons (ops : CurveOps) (header : Byte) (r s : ℕ) (hr : r < 256 ^ 32) (hs : s < 256 ^ 32) (msg : Bytes) :
    GoCompact.recoverCompact ops (header :: (beFix 32 r ++ beFix 32 s)) msg =
      GoCompact.recoverKey ops r s msg (GoCompact.iteration header) := by
  unfold GoCompact.recoverCompact
  rw [if_neg (by simp)]
  simp only [List.drop_succ_cons, List.drop_zero, List.getD_cons_zero]
  rw [List.take_left' (beFix_length _ _), List.drop_left' (beFix_length _ _),
    List.take_of_length_le (by rw [beFix_length]), natOfBytes_beFix_of_lt hr, natOfBytes_beFix_of_lt hs]

theorem iteration_low : ∀ i : Fin 4, GoCompact.iteration (BitVec.ofNat 8 (27 + i)) = i := by decide +kernel

/-- What the loop returns recovers to the key. -/
theorem search_sound (ops : CurveOps) (pub : ECPub) (r s : ℕ) (msg : Bytes) (sig : Bytes) : ∀ n i, n + i ≤ 4 →
    GoCompact.search ops pub r s msg n i = .ok sig →
    ∃ j : Fin 4, sig = BitVec.ofNat 8 (27 + j) :: (beFix 32 r ++ beFix 32 s) ∧
      GoCompact.recoverKey ops r s msg j = .ok (pub.x, pub.y)
  | 0, i, _, h => by cases h
  | n + 1, i, hi, h => by
    unfold GoCompact.search at h
    cases hc : GoCompact.recoverChecked ops r s msg i with
    | panic m => rw [hc] at h; cases h
    | err m => rw [hc] at h; exact search_sound ops pub r s msg sig n (i + 1) (by omega) h
    | ok p =>
      rw [hc] at h
      simp only at h
      by_cases hp : p.1 = pub.x ∧ p.2 = pub.y
      · rw [if_pos hp] at h
        refine ⟨⟨i, by omega⟩, (Res.ok.inj h).symm, ?_⟩
        rw [recoverChecked_ok hc, ← hp.1, ← hp.2]
      · rw [if_neg hp] at h
        exact search_sound ops pub r s msg sig n (i + 1) (by omega) h

/-- The loop finds a candidate if there is one. -/
theorem search_complete (ops : CurveOps) (hops : ops.Lawful (Curves.secp256k1 "") 0) (pub : ECPub) (r s : ℕ) (msg : Bytes)
    (hr : r % (Curves.secp256k1 "").N ≠ 0) (j : ℕ) (hj : GoCompact.recoverKey ops r s msg j = .ok (pub.x, pub.y)) :
    ∀ n i, i ≤ j → j < i + n → ∃ sig, GoCompact.search ops pub r s msg n i = .ok sig
  | 0, i, h1, h2 => by omega
  | n + 1, i, h1, h2 => by
    unfold GoCompact.search
    rw [recoverChecked_eq ops hops]
    have next : i ≠ j → ∃ sig, GoCompact.search ops pub r s msg n (i + 1) = .ok sig := fun hne =>
      search_complete ops hops pub r s msg hr j hj n (i + 1) (by omega) (by omega)
    cases hc : GoCompact.recoverKey ops r s msg i with
    | panic m => exact absurd ((recoverKey_panics ops r s msg i).1 ⟨m, hc⟩).2.2 hr
    | err m => exact next (fun e => by rw [e, hj] at hc; cases hc)
    | ok p =>
      simp only
      by_cases hp : p.1 = pub.x ∧ p.2 = pub.y
      · rw [if_pos hp]; exact ⟨_, rfl⟩
      · rw [if_neg hp]
        exact next (fun e => by rw [e, hj] at hc; cases Res.ok.inj hc; exact hp ⟨rfl, rfl⟩)

/-! ## C154 -/

theorem signNonce_range {ops : CurveOps} {k d : ℕ} {hash : Bytes} {r s : ℕ}
    (h : GoCompact.signNonce ops k d hash = .ok (r, s)) :
    0 < r ∧ r < GoCompact.k1.N ∧ 0 < s ∧ 2 * s ≤ GoCompact.k1.N := by
  have hpos : 0 < GoCompact.k1.N := (good_k1 "").order_prime.pos
  unfold GoCompact.signNonce at h
  simp only at h
  have hlt := Nat.mod_lt (ops.baseMult k).1 hpos
  have hlt2 := Nat.mod_lt ((d * ((ops.baseMult k).1 % GoCompact.k1.N) + GoECDSA.hashToInt hash GoCompact.k1) *
    GoECDSA.modInverse k GoCompact.k1.N) hpos
  generalize (d * ((ops.baseMult k).1 % GoCompact.k1.N) + GoECDSA.hashToInt hash GoCompact.k1) *
    GoECDSA.modInverse k GoCompact.k1.N % GoCompact.k1.N = t at *
  generalize (ops.baseMult k).1 % GoCompact.k1.N = q at *
  generalize GoCompact.k1.N = N at *
  by_cases h0 : q = 0
  · rw [if_pos h0] at h; cases h
  rw [if_neg h0] at h
  by_cases h1 : t > N / 2
  · rw [if_pos h1] at h
    by_cases h2 : N - t = 0
    · rw [if_pos h2] at h; cases h
    · rw [if_neg h2] at h; cases Res.ok.inj h; omega
  · rw [if_neg h1] at h
    by_cases h2 : t = 0
    · rw [if_pos h2] at h; cases h
    · rw [if_neg h2] at h; cases Res.ok.inj h; omega

theorem N_lt : GoCompact.k1.N < 256 ^ 32 := by decide +kernel

/-- **C154** What `SignCompact` returns has 65 bytes, a header from 27 to 30 and a low `s`, and the signer's key is recovered
from it, whatever the nonce and whatever the curve operations compute. -/
theorem C154_recovers (ops : CurveOps) (nonce : ℕ → Bytes → ℕ) (priv : ECPriv) (digest sig : Bytes)
    (h : GoCompact.signCompact ops nonce priv digest = .ok sig) :
    sig.length = 65 ∧ sig.getD 0 0 ∈ ([27, 28, 29, 30] : List Byte) ∧
      2 * sOf (sig.drop 1) ≤ (Curves.secp256k1 "").N ∧
      GoCompact.recoverCompact ops sig digest = .ok (priv.pub.x, priv.pub.y) := by
  unfold GoCompact.signCompact at h
  cases hs : GoCompact.signNonce ops (nonce priv.D digest) priv.D digest with
  | err m => rw [hs] at h; cases h
  | panic m => rw [hs] at h; cases h
  | ok p =>
    obtain ⟨r, s⟩ := p
    rw [hs] at h
    simp only at h
    obtain ⟨-, h1, -, h2⟩ := signNonce_range hs
    have hN := N_lt
    have hr : r < 256 ^ 32 := lt_trans h1 hN
    have hs' : s < 256 ^ 32 := by generalize (256 : ℕ) ^ 32 = M at *; generalize GoCompact.k1.N = N at *; omega
    obtain ⟨j, rfl, hk⟩ := search_sound ops priv.pub r s digest sig 4 0 (by omega) h
    refine ⟨by simp, ?_, ?_, ?_⟩
    · have : ∀ i : Fin 4, (BitVec.ofNat 8 (27 + i) : Byte) ∈ ([27, 28, 29, 30] : List Byte) := by decide +kernel
      exact this j
    · rw [List.drop_succ_cons, List.drop_zero]
      unfold sOf
      rw [List.drop_left' (beFix_length _ _), List.take_of_length_le (by rw [beFix_length]),
        natOfBytes_beFix_of_lt hs']
      exact h2
    · rw [recoverCompact_cons ops _ r s hr hs', iteration_low j]; exact hk

/-- `s (± k)` is `e + r d`. -/
theorem low_scalar {N : ℕ} (hN : N.Prime) {k d r e : ℕ} (hk : k % N ≠ 0) :
    k * ((d * r + e) * GoECDSA.modInverse k N % N) % N = (r * d + e) % N := by
  have : Fact N.Prime := ⟨hN⟩
  have hw := modInverse_spec hN k hk
  generalize GoECDSA.modInverse k N = w at *
  have h1 : ((k : ℕ) : ZMod N) * w = 1 := by
    have : ((k * w : ℕ) : ZMod N) = ((1 : ℕ) : ZMod N) := by
      rw [ZMod.natCast_eq_natCast_iff', hw, Nat.mod_eq_of_lt hN.one_lt]
    push_cast at this; exact this
  rw [← ZMod.natCast_eq_natCast_iff']
  push_cast
  simp only [ZMod.natCast_mod]
  push_cast
  calc (k : ZMod N) * ((d * r + e) * w) = (k * w) * (r * d + e) := by ring
    _ = _ := by rw [h1, one_mul]

theorem names_some [Fact (Curves.secp256k1 "").P.Prime] (R : Pt (Curves.secp256k1 "") 0) (hR : R ≠ 0) :
    ∃ j : Fin 4, Names (BitVec.ofNat 8 (27 + j)) ((xy R).1 % (Curves.secp256k1 "").N) R := by
  have hx := (Affine.xy_onCurve R hR).2.1
  have h2 := k1_two_N
  have tab : ∀ j : Fin 4, ((BitVec.ofNat 8 (27 + j) : Byte) ∈ ([27, 28, 31, 32] : List Byte) ↔ j.1 < 2) ∧
      ((BitVec.ofNat 8 (27 + j) : Byte) ∈ ([29, 30, 33, 34] : List Byte) ↔ 2 ≤ j.1) ∧
      ((BitVec.ofNat 8 (27 + j) : Byte).toNat % 2 = 0 ↔ j.1 % 2 = 1) := by decide +kernel
  have hle : (xy R).1 < 2 * (Curves.secp256k1 "").N := lt_of_lt_of_le hx h2
  by_cases hlt : (xy R).1 < (Curves.secp256k1 "").N
  · refine ⟨⟨(xy R).2 % 2, by omega⟩, ?_⟩
    obtain ⟨t1, -, t3⟩ := tab ⟨(xy R).2 % 2, by omega⟩
    unfold Names
    refine ⟨Or.inl ⟨t1.2 (by simp only; omega), (Nat.mod_eq_of_lt hlt).symm⟩, ?_⟩
    rw [t3]; simp only; omega
  · refine ⟨⟨2 + (xy R).2 % 2, by omega⟩, ?_⟩
    obtain ⟨-, t2, t3⟩ := tab ⟨2 + (xy R).2 % 2, by omega⟩
    unfold Names
    refine ⟨Or.inr ⟨t2.2 (by simp only; omega), ?_⟩, ?_⟩
    · rw [Nat.mod_eq_sub_mod (not_lt.1 hlt), Nat.mod_eq_of_lt (by omega)]; omega
    · rw [t3]; simp only; omega

/-- **C154** For a key pair and a nonce `k` from 1 to `N - 1`, `SignCompact` never panics and fails exactly when standard ECDSA
has to take another nonce: when `r` or `s` is zero. -/
theorem C154_succeeds_iff (ops : CurveOps) (hops : ops.Lawful (Curves.secp256k1 "") 0) (nonce : ℕ → Bytes → ℕ) (priv : ECPriv)
    (digest : Bytes) (hp : EthPair priv) (h0 : 0 < nonce priv.D digest)
    (hlt : nonce priv.D digest < (Curves.secp256k1 "").N)
    [Fact (Curves.secp256k1 "").P.Prime] (G : Pt (Curves.secp256k1 "") 0)
    (hG : xy G = ((Curves.secp256k1 "").Gx, (Curves.secp256k1 "").Gy)) :
    let r := (xy (nonce priv.D digest • G)).1 % (Curves.secp256k1 "").N
    let z := (r * priv.D + bits2int (Curves.secp256k1 "").N digest) % (Curves.secp256k1 "").N
    ((∃ sig, GoCompact.signCompact ops nonce priv digest = .ok sig) ↔ r ≠ 0 ∧ z ≠ 0) ∧
    ∀ m, GoCompact.signCompact ops nonce priv digest ≠ .panic m := by
  have hg : GoodCurve Signature.k1 0 := good_k1 ""
  have hNp : (Curves.secp256k1 "").N.Prime := hg.order_prime
  obtain ⟨hD, hpub⟩ := ethPair_k1 hp G hG
  simp only
  unfold GoCompact.signCompact
  generalize nonce priv.D digest = k at *
  have hkN : k % (Curves.secp256k1 "").N ≠ 0 := by rw [Nat.mod_eq_of_lt hlt]; omega
  have hkG : k • G ≠ 0 := hg.smul_ne_zero (hg.G_ne_zero hG) h0 hlt
  have hbase : ops.baseMult k = xy (k • G) := hops.base G hG k
  have hsc := fun d r e => low_scalar (d := d) (r := r) (e := e) hNp hkN
  -- the numbers `r` and `s`
  have hsn : GoCompact.signNonce ops k priv.D digest =
      (let r := (xy (k • G)).1 % (Curves.secp256k1 "").N
       let t := (priv.D * r + bits2int (Curves.secp256k1 "").N digest) *
         GoECDSA.modInverse k (Curves.secp256k1 "").N % (Curves.secp256k1 "").N
       let s := if t > (Curves.secp256k1 "").N / 2 then (Curves.secp256k1 "").N - t else t
       if r = 0 then .err "calculated R is zero" else if s = 0 then .err "calculated S is zero" else .ok (r, s)) := by
    unfold GoCompact.signNonce
    rw [C141_hash, hbase]
  rw [hsn]
  simp only
  have hsc' := hsc priv.D ((xy (k • G)).1 % (Curves.secp256k1 "").N) (bits2int (Curves.secp256k1 "").N digest)
  have htlt := Nat.mod_lt ((priv.D * ((xy (k • G)).1 % (Curves.secp256k1 "").N) + bits2int (Curves.secp256k1 "").N digest) *
    GoECDSA.modInverse k (Curves.secp256k1 "").N) hNp.pos
  generalize (priv.D * ((xy (k • G)).1 % (Curves.secp256k1 "").N) + bits2int (Curves.secp256k1 "").N digest) *
    GoECDSA.modInverse k (Curves.secp256k1 "").N % (Curves.secp256k1 "").N = t at *
  by_cases hr0 : (xy (k • G)).1 % (Curves.secp256k1 "").N = 0
  · rw [if_pos hr0]
    exact ⟨⟨fun ⟨_, h⟩ => (nomatch h), fun h => absurd hr0 h.1⟩, fun m h => (nomatch h)⟩
  rw [if_neg hr0]
  have ht0 : t = 0 ↔ ((xy (k • G)).1 % (Curves.secp256k1 "").N * priv.D + bits2int (Curves.secp256k1 "").N digest) %
      (Curves.secp256k1 "").N = 0 := by
    rw [← hsc']
    constructor
    · intro e; rw [e]; simp
    · intro e
      rcases (hNp.dvd_mul).1 (Nat.dvd_of_mod_eq_zero e) with h | h
      · exact absurd (Nat.mod_eq_zero_of_dvd h) hkN
      · exact Nat.eq_zero_of_dvd_of_lt h htlt
  rw [← not_iff_not] at ht0
  change _ ↔ _ ≠ 0 at ht0
  have hs0 : (if t > (Curves.secp256k1 "").N / 2 then (Curves.secp256k1 "").N - t else t) = 0 ↔ t = 0 := by
    generalize (Curves.secp256k1 "").N = N at htlt ⊢
    split_ifs <;> omega
  by_cases htz : t = 0
  · rw [if_pos (hs0.2 htz)]
    exact ⟨⟨fun ⟨_, h⟩ => (nomatch h), fun h => absurd htz (ht0.2 h.2)⟩, fun m h => (nomatch h)⟩
  rw [if_neg (fun e => htz (hs0.1 e))]
  simp only
  -- the point that goes with `s`
  have hpt : ∃ R : Pt (Curves.secp256k1 "") 0, R ≠ 0 ∧ (xy R).1 = (xy (k • G)).1 ∧
      ((xy (k • G)).1 % (Curves.secp256k1 "").N) • (priv.D • G) + bits2int (Curves.secp256k1 "").N digest • G =
        (if t > (Curves.secp256k1 "").N / 2 then (Curves.secp256k1 "").N - t else t) • R := by
    have e1 : ((xy (k • G)).1 % (Curves.secp256k1 "").N) • (priv.D • G) + bits2int (Curves.secp256k1 "").N digest • G =
        t • (k • G) := by
      rw [smul_smul, smul_smul, ← add_smul]
      refine (hg.smul_eq_iff (hg.G_ne_zero hG) _ _).2 ?_
      rw [Nat.mul_comm t k]; exact hsc'.symm
    by_cases hb : t > (Curves.secp256k1 "").N / 2
    · refine ⟨-(k • G), neg_ne_zero.2 hkG, xy_neg_fst _, ?_⟩
      rw [if_pos hb, e1, smul_neg, eq_neg_iff_add_eq_zero, ← add_smul,
        show t + ((Curves.secp256k1 "").N - t) = (Curves.secp256k1 "").N by omega]
      exact Verif.Affine.order_kills hg.card _
    · exact ⟨k • G, hkG, rfl, by rw [if_neg hb, e1]⟩
  obtain ⟨R, hR, hRx, he⟩ := hpt
  have hslt : (if t > (Curves.secp256k1 "").N / 2 then (Curves.secp256k1 "").N - t else t) < 256 ^ 32 := by
    have := N_lt
    change (Curves.secp256k1 "").N < _ at this
    generalize (256 : ℕ) ^ 32 = M at *
    generalize (Curves.secp256k1 "").N = N at *
    split_ifs <;> omega
  generalize (if t > (Curves.secp256k1 "").N / 2 then (Curves.secp256k1 "").N - t else t) = s at *
  have hrlt : (xy (k • G)).1 % (Curves.secp256k1 "").N < (Curves.secp256k1 "").N := Nat.mod_lt _ hNp.pos
  obtain ⟨j, hj⟩ := names_some R hR
  rw [hRx] at hj
  have hrN : (xy (k • G)).1 % (Curves.secp256k1 "").N % (Curves.secp256k1 "").N ≠ 0 := by rw [Nat.mod_mod]; exact hr0
  generalize (xy (k • G)).1 % (Curves.secp256k1 "").N = r at *
  have hr256 : r < 256 ^ 32 := lt_trans hrlt N_lt
  have hrec : GoCompact.recoverKey ops r s digest j = .ok (priv.pub.x, priv.pub.y) := by
    have h1 := recoverCompact_cons ops (BitVec.ofNat 8 (27 + j)) r s hr256 hslt digest
    rw [iteration_low j] at h1
    rw [← h1, recoverCompact_iff ops hops _ digest _ _ G hG]
    have er : rOf (beFix 32 r ++ beFix 32 s) = r := by
      unfold rOf; rw [List.take_left' (beFix_length _ _)]; exact natOfBytes_beFix_of_lt hr256
    have es : sOf (beFix 32 r ++ beFix 32 s) = s := by
      unfold sOf
      rw [List.drop_left' (beFix_length _ _), List.take_of_length_le (by rw [beFix_length])]
      exact natOfBytes_beFix_of_lt hslt
    simp only [List.getD_cons_zero, List.drop_succ_cons, List.drop_zero, er, es]
    exact ⟨by simp, hrN, R, priv.D • G, hR, hj, hpub.symm, he⟩
  obtain ⟨sig, hsig⟩ := search_complete ops hops priv.pub r s digest hrN j hrec 4 0 (by omega) (by have := j.2; omega)
  refine ⟨⟨fun _ => ⟨hr0, ht0.1 htz⟩, fun _ => ⟨sig, hsig⟩⟩, fun m h => ?_⟩
  rw [hsig] at h; cases h

/-- `E` with the compact signatures of btcec. -/
def withBtcecSign (E : Signature.Ext) (ops : CurveOps) (nonce : ℕ → Bytes → ℕ) : Signature.Ext :=
  { E with signCompact := GoCompact.signCompact ops nonce, recoverCompact := GoCompact.recoverCompact ops }

/-- **C154** What `Sign` returns for an EC key whose curve has the name of secp256k1, under a scheme named XwithECDSA, does not
depend on the random source, and `Verify` accepts it with the key's public part. Nothing is assumed of the key, the nonce
or the curve operations. -/
theorem C154_sign_verify (E : Signature.Ext) (ops : CurveOps) (nonce : ℕ → Bytes → ℕ) (fuel fuel' : ℕ) (rand rand' : Bytes)
    (scheme : Scheme) (a : HashAlg) (hname : name scheme = .ok (a.published ++ "withECDSA")) (alg : Alg) (priv : ECPriv)
    (hk : priv.pub.curve.name = E.k1name) (msg : Bytes) (hm : msg ≠ []) (opt : Opt) (sig : Sig Buf)
    (h : sign (withBtcecSign E ops nonce) fuel rand scheme (.ec alg priv) msg opt = some (.ok sig)) :
    sign (withBtcecSign E ops nonce) fuel' rand' scheme (.ec alg priv) msg opt = some (.ok sig) ∧
    verify (withBtcecSign E ops nonce) (.ec alg priv.pub) msg (some sig) = .ok true := by
  have ha := hashOf_of_name hname
  have hs := ecdsa_of_name hname
  have h9 : scheme ≠ SM3withSM2 := by
    intro e; rw [e] at hs; revert hs; decide
  have hk' : priv.pub.curve.name = (withBtcecSign E ops nonce).k1name := hk
  unfold sign at h ⊢
  simp only [ha, if_neg h9, hs, if_true, signECDSA, if_pos hk', secp256k1Sign] at h ⊢
  refine ⟨h, ?_⟩
  cases hc : (withBtcecSign E ops nonce).signCompact priv ((withBtcecSign E ops nonce).hash a msg) with
  | err m => rw [hc] at h; cases h
  | panic m => rw [hc] at h; cases h
  | ok b =>
    rw [hc] at h
    cases Res.ok.inj (Option.some.inj h)
    exact compact_accepts ha hs hm (C154_recovers ops nonce priv _ b hc).2.2.2

/-- **C154** All that is assumed of the external parts of package signature holds with the code of btcec for both
directions, for every choice of the nonces. -/
theorem C154_lawful (nonce : ℕ → Bytes → ℕ) : (withBtcecSign refSig k1Ops nonce).Lawful :=
  { C152_lawful with
    compact := fun priv digest sig _ h =>
      ⟨(C154_recovers k1Ops nonce priv digest sig h).1, (C154_recovers k1Ops nonce priv digest sig h).2.2.2⟩ }

/-! ## Non-vacuity -/

theorem sign_compact_ok (E : Signature.Ext) (ops : CurveOps) (nonce : ℕ → Bytes → ℕ) (fuel : ℕ) (rand : Bytes)
    (scheme : Scheme) (a : HashAlg) (hname : name scheme = .ok (a.published ++ "withECDSA")) (alg : Alg) (priv : ECPriv)
    (hk : priv.pub.curve.name = E.k1name) (msg : Bytes) (opt : Opt) (b : Bytes)
    (h : GoCompact.signCompact ops nonce priv (E.hash a msg) = .ok b) :
    sign (withBtcecSign E ops nonce) fuel rand scheme (.ec alg priv) msg opt = some (.ok ⟨scheme, .bytes ⟨b, []⟩⟩) := by
  have ha := hashOf_of_name hname
  have hs := ecdsa_of_name hname
  have h9 : scheme ≠ SM3withSM2 := by
    intro e; rw [e] at hs; revert hs; decide
  have hk' : priv.pub.curve.name = (withBtcecSign E ops nonce).k1name := hk
  have e1 : (withBtcecSign E ops nonce).signCompact priv ((withBtcecSign E ops nonce).hash a msg) = .ok b := h
  unfold sign
  simp only [ha, if_neg h9, hs, if_true, signECDSA, if_pos hk', secp256k1Sign, e1]
  rfl

/-- A key pair and a nonce for which `SignCompact` returns a signature; by sign_compact_ok `Sign` does, too. -/
example : ∃ sig, GoCompact.signCompact k1Ops (fun _ _ => 7) (keyOn (Curves.secp256k1 "") 5) (refSig.hash .sha256 abc) =
    .ok sig := by
  have := (good_k1 "").fact
  obtain ⟨G, hG⟩ := (good_k1 "").exists_G
  have hp : EthPair (keyOn (Curves.secp256k1 "") 5) :=
    ⟨"", (keyOn_pair (Curves.secp256k1 "") (by decide) 5 (by decide +kernel)).2⟩
  have key := (C154_succeeds_iff k1Ops k1Ops_lawful (fun _ _ => 7) (keyOn (Curves.secp256k1 "") 5)
    (refSig.hash .sha256 abc) hp (by decide) (show 7 < Signature.k1.N by decide +kernel) G hG).1.2
  apply key
  have hx : xy (7 • G) = k1Ops.baseMult 7 := (k1Ops_lawful.base G hG 7).symm
  simp only [hx]
  decide +kernel

end Verif.Props
