import Verif.Model.SM2
import Verif.Spec.SM2
import Verif.Lemmas.GoodCurve
import Verif.Lemmas.SM3
import Verif.Lemmas.Bytes
import Mathlib.Tactic.LinearCombination
import Mathlib.FieldTheory.Finite.Basic
/-!
# Lemmas about the SM2 model
-/
namespace Verif.SM2
open Verif.Spec

/-- The equation behind SM2 signatures, over `Z/N`. -/
theorem sign_algebra {N : ℕ} (hN : N.Prime) {D r k inv : ℕ} {s : ℤ}
    (hs : s = ((k : ℤ) - (D * r : ℕ)) * (inv : ℤ) % (N : ℤ)) (hs0 : s ≠ 0)
    (hr0 : r ≠ 0) (hr : r < N) (hk : k < N) (hrk : r + k ≠ N)
    (hinv : (D + 1) % N ≠ 0 → (D + 1) * inv % N = 1) (hinv' : (D + 1) % N = 0 → inv % N = 0) :
    1 ≤ s ∧ s < N ∧ 0 < ((r : ℤ) + s) % N ∧
      (s.toNat + (((r : ℤ) + s) % N).toNat * D) % N = k % N := by
  haveI : Fact N.Prime := ⟨hN⟩
  have hNpos : (0 : ℤ) < N := by exact_mod_cast hN.pos
  have hsn : 0 ≤ s := by rw [hs]; exact Int.emod_nonneg _ hNpos.ne'
  have hsl : s < N := by rw [hs]; exact Int.emod_lt_of_pos _ hNpos
  have hsZ : (s : ZMod N) = ((k : ZMod N) - D * r) * inv := by
    rw [hs, ZMod.intCast_mod]; push_cast; ring
  have hD : (D + 1) % N ≠ 0 := by
    intro h0
    have hi : ((inv : ℕ) : ZMod N) = 0 := by
      rw [ZMod.natCast_eq_zero_iff]; exact Nat.dvd_of_mod_eq_zero (hinv' h0)
    rw [hi, mul_zero] at hsZ
    rw [ZMod.intCast_zmod_eq_zero_iff_dvd] at hsZ
    exact hs0 (Int.eq_zero_of_dvd_of_nonneg_of_lt hsn hsl hsZ)
  have hi : ((D : ZMod N) + 1) * inv = 1 := by
    have := hinv hD
    have h1 : (((D + 1) * inv : ℕ) : ZMod N) = ((1 : ℕ) : ZMod N) := by
      rw [ZMod.natCast_eq_natCast_iff', this, Nat.mod_eq_of_lt hN.one_lt]
    push_cast at h1; exact h1
  have key : (s : ZMod N) + (r + s) * D = k := by
    rw [hsZ]; linear_combination ((k : ZMod N) - D * r) * hi
  refine ⟨by omega, hsl, ?_, ?_⟩
  · have hge := Int.emod_nonneg ((r : ℤ) + s) hNpos.ne'
    rcases hge.lt_or_eq with h | h
    · exact h
    · exfalso
      have hz : (((r : ℤ) + s : ℤ) : ZMod N) = 0 := by
        rw [ZMod.intCast_zmod_eq_zero_iff_dvd]; exact Int.dvd_of_emod_eq_zero h.symm
      push_cast at hz
      rw [hz, zero_mul, add_zero] at key
      have h2 : ((r + k : ℕ) : ZMod N) = 0 := by
        push_cast; rw [← key]; exact hz
      rw [ZMod.natCast_eq_zero_iff] at h2
      obtain ⟨q, hq⟩ := h2
      have : q < 2 := by
        by_contra hc
        have : N * 2 ≤ N * q := Nat.mul_le_mul_left _ (by omega)
        omega
      interval_cases q <;> omega
  · rw [← ZMod.natCast_eq_natCast_iff']
    have e1 : ((s.toNat : ℕ) : ZMod N) = (s : ZMod N) := by
      rw [← Int.cast_natCast, Int.toNat_of_nonneg hsn]
    have e2 : (((((r : ℤ) + s) % N).toNat : ℕ) : ZMod N) = r + s := by
      rw [← Int.cast_natCast, Int.toNat_of_nonneg (Int.emod_nonneg _ hNpos.ne'), ZMod.intCast_mod]
      push_cast; rfl
    push_cast
    rw [e1, e2]; exact key

theorem fermatInverse_spec {N : ℕ} (hN : N.Prime) (hN2 : 2 < N) (k : ℕ) :
    (k % N ≠ 0 → k * fermatInverse k N % N = 1) ∧ (k % N = 0 → fermatInverse k N % N = 0) := by
  haveI : Fact N.Prime := ⟨hN⟩
  have h2 := hN.two_le
  have hv : fermatInverse k N = k ^ (N - 2) % N := Primality.powMod_eq _ _ _
  have hp : k * k ^ (N - 2) = k ^ (N - 1) := by
    rw [← pow_succ']; congr 1; omega
  constructor
  · intro hk
    have hk' : ((k : ℕ) : ZMod N) ≠ 0 := by
      rw [Ne, ZMod.natCast_eq_zero_iff]; exact fun h => hk (Nat.mod_eq_zero_of_dvd h)
    have : ((k ^ (N - 1) : ℕ) : ZMod N) = ((1 : ℕ) : ZMod N) := by
      push_cast; exact ZMod.pow_card_sub_one_eq_one hk'
    rw [hv, Nat.mul_mod, Nat.mod_mod, ← Nat.mul_mod, hp]
    rw [ZMod.natCast_eq_natCast_iff', Nat.mod_eq_of_lt hN.one_lt] at this
    exact this
  · intro hk
    rw [hv, Nat.mod_mod]
    rw [Nat.pow_mod, hk, Nat.zero_pow (by omega), Nat.zero_mod]

theorem two_lt_N : 2 < Curves.sm2.N := by decide +kernel
theorem N_prime : Curves.sm2.N.Prime := good_sm2.order_prime

theorem invOf_spec {E : Ext} (hE : E.Lawful) (k : ℕ) :
    (k % Curves.sm2.N ≠ 0 → k * invOf E Curves.sm2.N k % Curves.sm2.N = 1) ∧
    (k % Curves.sm2.N = 0 → invOf E Curves.sm2.N k % Curves.sm2.N = 0) := by
  unfold invOf
  cases hi : E.inverse with
  | none => exact fermatInverse_spec N_prime two_lt_N k
  | some f =>
    refine ⟨fun h => ?_, hE.inverse' f hi k⟩
    have := hE.inverse f hi k
    rwa [if_neg h] at this

theorem randFieldElement_range (b : Bytes) :
    1 ≤ randFieldElement Curves.sm2 b ∧ randFieldElement Curves.sm2 b < Curves.sm2.N - 1 := by
  have h2 := two_lt_N
  have hm : natOfBytes b % (Curves.sm2.N - 1 - 1) < Curves.sm2.N - 1 - 1 := Nat.mod_lt _ (by omega)
  unfold randFieldElement
  omega

/-- `ScalarMult` on a point other than infinity. -/
theorem mult_xy {E : Ext} (hE : E.Lawful) {P : Pt Curves.sm2 (-3)} (hP : P ≠ 0) (k : ℕ) :
    E.ops.mult ((xy P).1, (xy P).2) k = xy (k • P) := by
  obtain ⟨hon, hx, hy⟩ := Affine.xy_onCurve P hP
  refine hE.mult P _ _ k hP (hE.onCurve' _ _ hx hy hon) ?_
  rw [Nat.mod_eq_of_lt hx, Nat.mod_eq_of_lt hy]

theorem combine_eq {E : Ext} (hE : E.Lawful) {G P : Pt Curves.sm2 (-3)}
    (hG : xy G = (Curves.sm2.Gx, Curves.sm2.Gy)) (hP : P ≠ 0) {pub : ECPub}
    (hpub : (pub.x, pub.y) = xy P) (s t : ℕ) : combine E pub s t = xy (s • G + t • P) := by
  unfold combine
  cases hc : E.combinedMult with
  | some f => simp only [hpub]; exact hE.combined G P hG hP f hc s t
  | none =>
    simp only [hpub]
    rw [hE.base G hG s, mult_xy hE hP t]
    exact hE.add _ _

/-- What `Verify` does, for a key on the curve. -/
theorem verify_iff {E : Ext} (hE : E.Lawful) (H : Bytes → Bytes) {G P : Pt Curves.sm2 (-3)}
    (hG : xy G = (Curves.sm2.Gx, Curves.sm2.Gy)) (hP : P ≠ 0) {pub : ECPub}
    (hc : pub.curve = Curves.sm2) (hpub : (pub.x, pub.y) = xy P) (id msg mz : Bytes)
    (hz : getZ H msg pub id = .ok mz) (r s : ℤ) :
    verify E H pub id msg r s = true ↔ SM2.Accepts G P (natOfBytes (H mz)) r s := by
  have hNpos : 0 < Curves.sm2.N := N_prime.pos
  unfold verify Spec.SM2.Accepts
  simp only [hc, hz, combine_eq hE hG hP hpub]
  rw [if_neg hNpos.ne']
  simp only [Spec.SM2.n, Spec.SM2.crv]
  generalize hN : Curves.sm2.N = N at hNpos
  split_ifs with h1 h2 h3
  · simp only [Bool.false_eq_true, false_iff]; rintro ⟨a, b, c, d, -⟩; omega
  · simp only [Bool.false_eq_true, false_iff]; rintro ⟨a, b, c, d, e, -⟩
    have := Int.emod_nonneg (r + s) (show (N : ℤ) ≠ 0 by omega)
    omega
  · simp only [Bool.false_eq_true, false_iff]; rintro ⟨-, -, -, -, -, hq, -⟩
    exact hq ((Affine.xy_eq_zero_iff good_sm2.ok _).1 (Prod.ext h3.1 h3.2))
  · have hq : s.toNat • G + ((r + s) % (N : ℤ)).toNat • P ≠ 0 := by
      intro e
      apply h3
      have := (Affine.xy_eq_zero_iff good_sm2.ok _).2 e
      rw [this]; exact ⟨rfl, rfl⟩
    rw [beq_iff_eq]
    constructor
    · intro e
      refine ⟨by omega, by omega, by omega, by omega, by omega, hq, ?_⟩
      refine Eq.trans ?_ e
      rw [Int.natCast_mod, Nat.cast_add, add_comm]
    · rintro ⟨-, -, -, -, -, -, e⟩
      refine Eq.trans ?_ e
      rw [Int.natCast_mod, Nat.cast_add, add_comm]

/-- The numbers a successful pass of the signing loop returns. -/
theorem signTry_spec' {E : Ext} {D e k r s : ℕ}
    (hi : ((D + 1) % Curves.sm2.N ≠ 0 →
        (D + 1) * invOf E Curves.sm2.N (D + 1) % Curves.sm2.N = 1) ∧
      ((D + 1) % Curves.sm2.N = 0 → invOf E Curves.sm2.N (D + 1) % Curves.sm2.N = 0))
    (hk1 : 1 ≤ k) (hk : k < Curves.sm2.N) (h : signTry E Curves.sm2.N D e k = some (r, s)) :
    r = ((E.ops.baseMult k).1 + e) % Curves.sm2.N ∧ 1 ≤ r ∧ r < Curves.sm2.N ∧ 1 ≤ s ∧
      s < Curves.sm2.N ∧ 0 < ((r : ℤ) + s) % (Curves.sm2.N : ℕ) ∧
      (s + (((r : ℤ) + s) % (Curves.sm2.N : ℕ)).toNat * D) % Curves.sm2.N = k % Curves.sm2.N := by
  unfold signTry at h
  have hNp := N_prime
  generalize Curves.sm2.N = N at *
  simp only at h
  split_ifs at h with h1 h2
  rw [Option.some.injEq, Prod.mk.injEq] at h
  obtain ⟨hr, hs⟩ := h
  have hrl : ((E.ops.baseMult k).1 + e) % N < N := Nat.mod_lt _ hNp.pos
  rw [hr] at h1 h2 hs hrl
  obtain ⟨a, b, c, d⟩ := sign_algebra hNp rfl h2 h1.1 hrl hk h1.2 hi.1 hi.2
  generalize hS : ((k : ℤ) - (D * r : ℕ)) * (invOf E N (D + 1) : ℤ) % (N : ℤ) = S at *
  have hSs : S = (s : ℤ) := by omega
  subst hSs
  refine ⟨hr.symm, by omega, hrl, by omega, by omega, c, ?_⟩
  simpa using d

theorem signTry_spec {E : Ext} (hE : E.Lawful) {D e k r s : ℕ}
    (hk1 : 1 ≤ k) (hk : k < Curves.sm2.N) (h : signTry E Curves.sm2.N D e k = some (r, s)) :
    r = ((E.ops.baseMult k).1 + e) % Curves.sm2.N ∧ 1 ≤ r ∧ r < Curves.sm2.N ∧ 1 ≤ s ∧
      s < Curves.sm2.N ∧ 0 < ((r : ℤ) + s) % (Curves.sm2.N : ℕ) ∧
      (s + (((r : ℤ) + s) % (Curves.sm2.N : ℕ)).toNat * D) % Curves.sm2.N = k % Curves.sm2.N :=
  signTry_spec' (invOf_spec hE (D + 1)) hk1 hk h

/-- The loop returns the numbers of some read's nonce. -/
theorem signLoop_spec {E : Ext} {c : Curve} {D e : ℕ} {reads : List Bytes} {rs : ℕ × ℕ}
    (h : signLoop E c D e reads = some rs) :
    ∃ b ∈ reads, signTry E c.N D e (randFieldElement c b) = some rs := by
  induction reads with
  | nil => simp [signLoop] at h
  | cons b bs ih =>
    unfold signLoop at h
    split at h
    next rs' hb => exact ⟨b, by simp, by rw [hb, ← h]⟩
    next hb => obtain ⟨b', hm, h'⟩ := ih h; exact ⟨b', by simp [hm], h'⟩

theorem signLoop_none {E : Ext} {c : Curve} {D e : ℕ} {reads : List Bytes} :
    signLoop E c D e reads = none ↔
      ∀ b ∈ reads, signTry E c.N D e (randFieldElement c b) = none := by
  induction reads with
  | nil => simp [signLoop]
  | cons b bs ih =>
    unfold signLoop
    split
    next rs' hb => simp [hb]
    next hb => simp [hb, ih]

theorem natOfBytes_bytesOfNat (n : ℕ) : natOfBytes (bytesOfNat n) = n :=
  natOfBytes_beFix_of_lt (lt_pow_byteLen n)

/-- What a returning `Sign` did. -/
theorem sign_ok {E : Ext} {H : Bytes → Bytes} {fuel : ℕ} {rand : Bytes} {priv : ECPriv} {id msg : Bytes}
    {rs : ℕ × ℕ} (h : sign E H fuel rand priv id msg = some (.ok rs)) :
    ∃ mz, getZ H msg priv.pub id = .ok mz ∧ priv.pub.curve = Curves.sm2 ∧
      ∃ reads, signLoop E priv.pub.curve priv.D (natOfBytes (H mz)) reads = some rs := by
  unfold sign at h
  split at h
  · simp at h
  · simp at h
  next mz hz =>
    simp only at h
    split_ifs at h with h1
    · simp at h
    · have hc : priv.pub.curve = Curves.sm2 := by
        by_contra hc
        unfold getZ at hz
        rw [if_pos hc] at hz
        cases hz
      rw [Option.map_eq_some_iff] at h
      obtain ⟨a, ha, e⟩ := h
      cases e
      rw [natOfBytes_bytesOfNat] at ha
      exact ⟨mz, hz, hc, _, ha⟩

end Verif.SM2
