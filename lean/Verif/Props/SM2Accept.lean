import Verif.Props.SM2Sign
/-!
# C109: the SM2 signatures that are accepted are those that signing makes

`Spec.SM2.Signs` is the standard's signing with a given random number, `Spec.SM2.Accepts` its check.
-/
namespace Verif.Props
open Verif Verif.Spec

/-- For a private key in the standard's range, the check accepts what signing makes with some random number. -/
theorem accepts_iff_signs (G : SM2.Point) (hG : xy G = (Curves.sm2.Gx, Curves.sm2.Gy)) (d e : Nat)
    (h1 : 1 ≤ d) (h2 : d ≤ SM2.n - 2) (r s : Int) :
    SM2.Accepts G (d • G) e r s ↔ ∃ k, SM2.Signs G d e k r s := by
  have hG0 : G ≠ 0 := good_sm2.G_ne_zero hG
  have hn : SM2.n.Prime := SM2.N_prime
  have hn2 : 2 < SM2.n := SM2.two_lt_N
  have hsm : ∀ k l : ℕ, k • G = l • G ↔ k % SM2.n = l % SM2.n := fun k l => good_sm2.smul_eq_iff hG0 k l
  have hsm0 : ∀ k : ℕ, k • G = 0 ↔ k % SM2.n = 0 := fun k => good_sm2.smul_eq_zero_iff hG0 k
  have hpi : Prime ((SM2.n : ℕ) : ℤ) := Nat.prime_iff_prime_int.1 hn
  unfold SM2.Accepts SM2.Signs
  generalize SM2.n = n at *
  have hnpos : (0 : ℤ) < n := by omega
  have hd1 : ¬ ((n : ℤ) ∣ 1 + d) := fun h => by
    have := Int.le_of_dvd (by omega) h
    omega
  have htt : ∀ m : ℤ, 0 ≤ m % (n : ℤ) ∧ m % (n : ℤ) < n ∧ (n : ℤ) ∣ m - m % n := fun m =>
    ⟨Int.emod_nonneg _ (by omega), Int.emod_lt_of_pos _ hnpos, Int.dvd_self_sub_emod⟩
  constructor
  · rintro ⟨r1, r2, s1, s2, ht, hQ, hr⟩
    obtain ⟨t0, t1, t2⟩ := htt (r + s)
    generalize hT : (r + s) % (n : ℤ) = T at *
    have hQ' : s.toNat • G + T.toNat • d • G = ((s.toNat + T.toNat * d) % n) • G := by
      rw [smul_smul, ← add_smul, hsm, Nat.mod_mod]
    have hkc : (((s.toNat + T.toNat * d : ℕ)) : ℤ) = s + T * d := by
      push_cast
      rw [Int.toNat_of_nonneg (by omega), Int.toNat_of_nonneg t0]
    have hkm : (n : ℤ) ∣ (s + T * d) - (((s.toNat + T.toNat * d) % n : ℕ) : ℤ) := by
      rw [← hkc]
      push_cast
      exact Int.dvd_self_sub_emod
    rw [hQ'] at hQ hr
    have hk0 : (s.toNat + T.toNat * d) % n ≠ 0 := by
      intro h0
      rw [h0, zero_smul] at hQ
      exact hQ rfl
    have hkn : (s.toNat + T.toNat * d) % n < n := Nat.mod_lt _ (by omega)
    generalize (s.toNat + T.toNat * d) % n = k at *
    refine ⟨k, by omega, hkn, hr.symm, by omega, ?_, by omega, s2, by omega, ?_⟩
    · intro hrk
      have : (n : ℤ) ∣ T * (1 + d) := by
        have e : T * (1 + (d : ℤ)) = (n : ℤ) + ((s + T * d) - k) - ((r + s) - T) := by
          rw [← hrk]; ring
        rw [e]
        exact Int.dvd_sub (Int.dvd_add (dvd_refl _) hkm) t2
      rcases hpi.dvd_or_dvd this with h | h
      · have := Int.le_of_dvd (by omega) h
        omega
      · exact hd1 h
    · rw [Int.emod_eq_emod_iff_emod_sub_eq_zero, ← Int.dvd_iff_emod_eq_zero]
      have e : s * (1 + (d : ℤ)) - (k - r * d) = ((s + T * d) - k) + ((r + s) - T) * d := by ring
      rw [e]
      exact Int.dvd_add hkm (Dvd.dvd.mul_right t2 _)
  · rintro ⟨k, k1, k2, hr, r0, hrk, s0, s1, s2, hs⟩
    obtain ⟨t0, t1, t2⟩ := htt (r + s)
    have hrr : 0 ≤ r ∧ r < n := by
      rw [hr]
      exact ⟨Int.emod_nonneg _ (by omega), Int.emod_lt_of_pos _ hnpos⟩
    rw [Int.emod_eq_emod_iff_emod_sub_eq_zero, ← Int.dvd_iff_emod_eq_zero] at hs
    generalize hT : (r + s) % (n : ℤ) = T at *
    have hkd : (n : ℤ) ∣ (s + T * d) - k := by
      have e : (s + T * (d : ℤ)) - k = (s * (1 + d) - (k - r * d)) - ((r + s) - T) * d := by ring
      rw [e]
      exact Int.dvd_sub hs (Dvd.dvd.mul_right t2 _)
    have hQ : s.toNat • G + T.toNat • d • G = k • G := by
      rw [smul_smul, ← add_smul, hsm]
      have : ((s.toNat + T.toNat * d : ℕ) : ℤ) % n = (k : ℤ) % n := by
        push_cast
        rw [Int.toNat_of_nonneg s0, Int.toNat_of_nonneg t0, Int.emod_eq_emod_iff_emod_sub_eq_zero,
          ← Int.dvd_iff_emod_eq_zero]
        exact hkd
      exact_mod_cast this
    rw [hQ]
    refine ⟨by omega, hrr.2, by omega, s1, ?_, ?_, hr.symm⟩
    · intro h0
      rw [h0] at t2 hkd
      have : (n : ℤ) ∣ r + k := by
        have e : r + (k : ℤ) = ((r + s) - 0) - ((s + 0 * d) - k) := by ring
        rw [e]
        exact Int.dvd_sub t2 hkd
      obtain ⟨c, hc⟩ := this
      have hc1 : 0 < c := by
        by_contra h
        have : (n : ℤ) * c ≤ 0 := mul_nonpos_of_nonneg_of_nonpos hnpos.le (by omega)
        omega
      have hc2 : c < 2 := by
        by_contra h
        have : (n : ℤ) * 2 ≤ n * c := mul_le_mul_of_nonneg_left (by omega) hnpos.le
        omega
      obtain rfl : c = 1 := by omega
      apply hrk
      rw [hc, mul_one]
    · rw [Ne, hsm0, Nat.mod_eq_of_lt k2]
      omega

/-- **C109** `sm2.Verify` accepts exactly the signatures that the standard's signing makes with the private key
and some random number: for every private key from 1 to `n - 2`, id, message, hash function and pair of
integers. Nobody without the key can rely on a second kind of signature being accepted, and every
implementation's signatures are accepted. -/
theorem C109_accepted_iff_made (E : SM2.Ext) (hE : E.Lawful) (H : Bytes → Bytes) (G : SM2.Point)
    (hG : xy G = (Curves.sm2.Gx, Curves.sm2.Gy)) (d : Nat) (h1 : 1 ≤ d) (h2 : d ≤ SM2.n - 2) (pub : ECPub)
    (hc : pub.curve = Curves.sm2) (hpub : (pub.x, pub.y) = xy (d • G)) (id msg : Bytes) (r s : Int) :
    SM2.verify E H pub id msg r s = true ↔
      ∃ mz k, SM2.getZ H msg pub id = .ok mz ∧ SM2.Signs G d (natOfBytes (H mz)) k r s := by
  have hP : d • G ≠ 0 := good_sm2.smul_ne_zero (good_sm2.G_ne_zero hG) h1 (by
    have := SM2.two_lt_N
    have : d ≤ Curves.sm2.N - 2 := h2
    omega)
  rw [C39_verify_iff E hE H G hG (d • G) hP pub hc hpub id msg r s]
  simp only [accepts_iff_signs G hG d _ h1 h2]
  constructor
  · rintro ⟨mz, h, k, hk⟩; exact ⟨mz, k, h, hk⟩
  · rintro ⟨mz, k, h, hk⟩; exact ⟨mz, h, k, hk⟩

/-- **C109** The random number is determined by the signature: a signature is made with one nonce only. -/
theorem C109_one_nonce (G : SM2.Point) (d e e' k k' : Nat) (r s : Int) (h : SM2.Signs G d e k r s)
    (h' : SM2.Signs G d e' k' r s) : k = k' := by
  obtain ⟨_, a2, _, _, _, _, _, _, a3⟩ := h
  obtain ⟨_, b2, _, _, _, _, _, _, b3⟩ := h'
  rw [a3, Int.emod_eq_emod_iff_emod_sub_eq_zero, ← Int.dvd_iff_emod_eq_zero] at b3
  obtain ⟨c, hc⟩ := b3
  have hz : c = 0 := by
    by_contra h0
    rcases lt_or_gt_of_ne h0 with h | h
    · have : (SM2.n : ℤ) * c ≤ SM2.n * (-1) := mul_le_mul_of_nonneg_left (by omega) (by omega)
      omega
    · have : (SM2.n : ℤ) * 1 ≤ SM2.n * c := mul_le_mul_of_nonneg_left (by omega) (by omega)
      omega
  rw [hz] at hc
  omega

/-- **C109** And the signature by the nonce. -/
theorem C109_one_signature (G : SM2.Point) (d e k : Nat) (h1 : 1 ≤ d) (h2 : d ≤ SM2.n - 2) (r s r' s' : Int)
    (h : SM2.Signs G d e k r s) (h' : SM2.Signs G d e k r' s') : r = r' ∧ s = s' := by
  obtain ⟨_, _, a1, _, _, a2, a3, _, a4⟩ := h
  obtain ⟨_, _, b1, _, _, b2, b3, _, b4⟩ := h'
  obtain rfl : r = r' := a1.trans b1.symm
  refine ⟨rfl, ?_⟩
  rw [← b4, Int.emod_eq_emod_iff_emod_sub_eq_zero, ← Int.dvd_iff_emod_eq_zero, ← sub_mul] at a4
  have hn : SM2.n.Prime := SM2.N_prime
  have hn2 : 2 < SM2.n := SM2.two_lt_N
  rcases (Nat.prime_iff_prime_int.1 hn).dvd_or_dvd a4 with h | h
  · have := Int.eq_zero_of_abs_lt_dvd h (abs_lt.2 ⟨by omega, by omega⟩)
    omega
  · have := Int.le_of_dvd (by omega) h
    omega

/-- **C109** `sm2.Sign` makes one of them, with a nonce from 1 to `n - 2`. -/
theorem C109_sign (E : SM2.Ext) (hE : E.Lawful) (H : Bytes → Bytes) (G : SM2.Point)
    (hG : xy G = (Curves.sm2.Gx, Curves.sm2.Gy)) (priv : ECPriv) (hp : SM2Pair G priv)
    (h2 : priv.D ≤ SM2.n - 2) (fuel : Nat) (rand id msg : Bytes) (r s : Nat)
    (hs : SM2.sign E H fuel rand priv id msg = some (.ok (r, s))) :
    ∃ mz k, SM2.getZ H msg priv.pub id = .ok mz ∧ k ≤ SM2.n - 2 ∧
      SM2.Signs G priv.D (natOfBytes (H mz)) k r s := by
  obtain ⟨r1, r2, s1, s2, mz, k, hz, k1, k2, hr, hk⟩ := C40_sign_values E hE H G hG priv fuel rand id msg r s hs
  have hv := C38_sign_verify E hE H G hG priv hp fuel rand id msg r s hs
  have hn2 : 2 < SM2.n := SM2.two_lt_N
  have hD : 1 ≤ priv.D := Nat.one_le_iff_ne_zero.2 fun h => hp.2.1 (by rw [h]; rfl)
  obtain ⟨mz', k', hz', hsig⟩ := (C109_accepted_iff_made E hE H G hG priv.D hD h2 priv.pub hp.1 hp.2.2 id msg r s).1 hv
  rw [hz] at hz'
  obtain rfl := Res.ok.inj hz'
  obtain ⟨a1, a2, a3, a4, a5, a6, a7, a8, a9⟩ := hsig
  refine ⟨mz, k, hz, k2, k1, by omega, by rw [hr]; push_cast; rfl, by omega, ?_, by omega, by omega, by omega, ?_⟩
  · have hkk : k = k' := by
      rw [hk, Int.emod_eq_emod_iff_emod_sub_eq_zero, ← Int.dvd_iff_emod_eq_zero] at a9
      obtain ⟨c, hc⟩ := a9
      have hz : c = 0 := by
        by_contra h0
        rcases lt_or_gt_of_ne h0 with h | h
        · have : (SM2.n : ℤ) * c ≤ SM2.n * (-1) := mul_le_mul_of_nonneg_left (by omega) (by omega)
          omega
        · have : (SM2.n : ℤ) * 1 ≤ SM2.n * c := mul_le_mul_of_nonneg_left (by omega) (by omega)
          omega
      rw [hz] at hc
      omega
    rw [hkk]
    exact a5
  · exact hk

/-! ## A case that meets the hypotheses -/

/-- The signature `sig327` of Props/SM2Sign.lean is one that signing makes. -/
example (G : SM2.Point) (hG : xy G = (Curves.sm2.Gx, Curves.sm2.Gy)) :
    ∃ k, SM2.Signs G 327 (SM2.digest (sm2ID []) (xy (327 • G)).1 (xy (327 • G)).2 abc) k sig327.1 sig327.2 :=
  (accepts_iff_signs G hG 327 _ (by decide) (by decide +kernel) _ _).1
    (C39_standard_signature_rejected refSM2 refSM2_lawful G hG).1

end Verif.Props
