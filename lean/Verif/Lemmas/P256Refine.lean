/-
The arithmetic routines of sm2/p256_asm_amd64.s, instruction by instruction, compute the functions
of Model/P256Field: for every machine state, so for all argument values and all ways in which
the arguments overlap, and they change no memory but the four words of the result.
-/
import Verif.Lemmas.P256Run
import Verif.Lemmas.P256Small
import Mathlib.Data.Int.ModEq

namespace Verif.X64.P256

/-- The words of a number from its value. -/
theorem words_eq {w0 w1 w2 w3 : W} {v : ℕ}
    (h : z w0 + B₁ * z w1 + B₂ * z w2 + B₃ * z w3 = (v : ℤ)) :
    w0 = BitVec.ofNat 64 v ∧ w1 = BitVec.ofNat 64 (v / 2 ^ 64) ∧
      w2 = BitVec.ofNat 64 (v / 2 ^ 128) ∧ w3 = BitVec.ofNat 64 (v / 2 ^ 192) := by
  have h0 := w0.isLt; have h1 := w1.isLt; have h2 := w2.isLt; have h3 := w3.isLt
  unfold z at h
  refine ⟨?_, ?_, ?_, ?_⟩ <;> apply BitVec.eq_of_toNat_eq <;> rw [BitVec.toNat_ofNat] <;> omega

theorem words_lt {w0 w1 w2 w3 : W} {v : ℕ}
    (h : z w0 + B₁ * z w1 + B₂ * z w2 + B₃ * z w3 = (v : ℤ)) : v < 2 ^ 256 := by
  have := (four_lt w0 w1 w2 w3).2
  rw [h] at this
  have h2 : (v : ℤ) < ((2 ^ 256 : ℕ) : ℤ) := this.trans_eq (by norm_num)
  exact_mod_cast h2

theorem words_val4 {w0 w1 w2 w3 : W} {v : ℕ}
    (h : z w0 + B₁ * z w1 + B₂ * z w2 + B₃ * z w3 = (v : ℤ)) : val4 w0 w1 w2 w3 = v := by
  rw [← val4_cast] at h
  exact_mod_cast h

theorem mem_wr4 {m m' : W → W} {a w0 w1 w2 w3 : W} {v : ℕ}
    (hm : m' = upd (upd (upd (upd m (a + 0#64) w0) (a + 8#64) w1) (a + 16#64) w2) (a + 24#64) w3)
    (h : z w0 + B₁ * z w1 + B₂ * z w2 + B₃ * z w3 = (v : ℤ)) : m' = wr4 m a v := by
  obtain ⟨e0, e1, e2, e3⟩ := words_eq h
  rw [hm, e0, e1, e2, e3, show a + 0#64 = a from by simp]
  rfl

/-- p256_sm2Mul computes `mulP`. -/
theorem exec_mul (s : St) : (exec mul s).mem =
    wr4 s.mem (s.arg 0) (mulP (rd4 s.mem (s.arg 24)) (rd4 s.mem (s.arg 48))) :=
  mul_wp (Q := fun s' => s'.mem = _) fun _ _ _ _ _ hm hv => mem_wr4 hm hv

/-- p256_sm2Sqr computes `sqrP`. -/
theorem exec_sqr (s : St) : (exec sqr s).mem =
    wr4 s.mem (s.arg 0) (sqrP (rd4 s.mem (s.arg 24))) :=
  sqr_wp (Q := fun s' => s'.mem = _) fun _ _ _ _ _ hm hv => mem_wr4 hm hv

/-- p256_sm2FromMont computes `fromMontP`. -/
theorem exec_fromMont (s : St) : (exec fromMont s).mem =
    wr4 s.mem (s.arg 0) (fromMontP (rd4 s.mem (s.arg 24))) :=
  fromMont_wp (Q := fun s' => s'.mem = _) fun _ _ _ _ _ hm hv => mem_wr4 hm hv

/-- p256_sm2OrdMul computes `mulN`. -/
theorem exec_ordMul (s : St) : (exec ordMul s).mem =
    wr4 s.mem (s.arg 0) (mulN (rd4 s.mem (s.arg 24)) (rd4 s.mem (s.arg 48))) :=
  ordMul_wp (Q := fun s' => s'.mem = _) fun _ _ _ _ _ hm hv => mem_wr4 hm hv

/-- p256_sm2NegCond computes `negP`. -/
theorem exec_negCond (s : St) : (exec negCond s).mem =
    wr4 s.mem (s.arg 0) (negP (rd4 s.mem (s.arg 0)) (decide (s.arg 24 ≠ 0))) :=
  negCond_wp (Q := fun s' => s'.mem = _) fun _ _ _ _ _ hm hv => mem_wr4 hm hv

/-! ### Reading the result back -/

theorem wr4_other {m : W → W} {a b : W} {v : ℕ} (h0 : b ≠ a) (h1 : b ≠ a + 8) (h2 : b ≠ a + 16)
    (h3 : b ≠ a + 24) : wr4 m a v b = m b := by
  unfold wr4 wrWords upd
  rw [if_neg h3, if_neg h2, if_neg h1, if_neg h0]

theorem add_ne (a c d : W) (h : c ≠ d) : a + c ≠ a + d := fun e => h (by simpa using e)
theorem add_ne' (a c : W) (h : c ≠ 0#64) : a ≠ a + c := fun e => h (by
  have h2 : a + 0#64 = a + c := by rw [BitVec.add_zero]; exact e
  simpa using h2.symm)

theorem rd4_wr4 (m : W → W) (a : W) {v : ℕ} (hv : v < 2 ^ 256) : rd4 (wr4 m a v) a = v := by
  unfold rd4 wr4 wrWords upd
  have e1 : a ≠ a + 8 := add_ne' _ _ (by decide)
  have e2 : a ≠ a + 16 := add_ne' _ _ (by decide)
  have e3 : a ≠ a + 24 := add_ne' _ _ (by decide)
  have e4 : a + 8 ≠ a + 16 := add_ne _ _ _ (by decide)
  have e5 : a + 8 ≠ a + 24 := add_ne _ _ _ (by decide)
  have e6 : a + 16 ≠ a + 24 := add_ne _ _ _ (by decide)
  simp only [if_neg e1, if_neg e2, if_neg e3, if_neg e4, if_neg e5, if_neg e6, if_true,
    BitVec.toNat_ofNat]
  omega

/-! ### What the functions compute -/

theorem redc_lt_two_pow {q k t : ℕ} (hq : q < 2 ^ 256) (ht : t < 2 ^ 256 * 2 ^ 256) :
    redc q k t < 2 ^ 256 := by
  unfold redc
  have hm : t * k % 2 ^ 256 < 2 ^ 256 := Nat.mod_lt _ (by decide)
  generalize t * k % 2 ^ 256 = m at *
  have : m * q ≤ 2 ^ 256 * q := Nat.mul_le_mul_right q hm.le
  have h2 : (t + m * q) / 2 ^ 256 < 2 ^ 256 + q := by
    rw [Nat.div_lt_iff_lt_mul (by decide)]
    nlinarith
  generalize (t + m * q) / 2 ^ 256 = u at *
  dsimp only
  split <;> omega

theorem redc_lt {q k t : ℕ} (ht : t < q * 2 ^ 256) : redc q k t < q := by
  unfold redc
  have hm : t * k % 2 ^ 256 < 2 ^ 256 := Nat.mod_lt _ (by decide)
  generalize t * k % 2 ^ 256 = m at *
  have : m * q ≤ 2 ^ 256 * q := Nat.mul_le_mul_right q hm.le
  have h2 : (t + m * q) / 2 ^ 256 < q + q := by
    rw [Nat.div_lt_iff_lt_mul (by decide)]
    nlinarith
  generalize (t + m * q) / 2 ^ 256 = u at *
  dsimp only
  split <;> omega

theorem reduce_modEq {q R t m u : ℕ} (hu : u * R = t + m * q) :
    (if u < q then u else u - q) * R ≡ t [MOD q] := by
  have hbase : u * R ≡ t [MOD q] := by
    rw [hu]
    exact (Nat.modEq_of_dvd (by
      refine ⟨-(m : ℤ), ?_⟩
      push_cast
      ring))
  split
  · exact hbase
  · rename_i h
    have h4 : u - q + q = u := Nat.sub_add_cancel (not_lt.mp h)
    have h5 : (u - q) * R ≡ u * R [MOD q] := by
      refine Nat.ModEq.mul_right _ ?_
      conv_rhs => rw [← h4]
      exact (Nat.modEq_of_dvd (by
        refine ⟨1, ?_⟩
        push_cast
        ring))
    exact h5.trans hbase

/-- Montgomery reduction divides by 2^256 modulo `q`. -/
theorem redc_modEq {q k c t : ℕ} (hk : q * k + 1 = 2 ^ 256 * c) :
    redc q k t * 2 ^ 256 ≡ t [MOD q] := by
  have hdvd : 2 ^ 256 ∣ t + t * k % 2 ^ 256 * q := by
    have h1 : t * k % 2 ^ 256 * q ≡ t * k * q [MOD 2 ^ 256] :=
      Nat.ModEq.mul_right q (Nat.mod_modEq _ _)
    have h2 : t + t * k % 2 ^ 256 * q ≡ t + t * k * q [MOD 2 ^ 256] := Nat.ModEq.add_left t h1
    have h3 : t + t * k * q = 2 ^ 256 * (t * c) := by
      calc t + t * k * q = t * (q * k + 1) := by ring
        _ = 2 ^ 256 * (t * c) := by rw [hk]; ring
    rw [h3] at h2
    exact (Nat.modEq_zero_iff_dvd.mp (h2.trans (Nat.modEq_zero_iff_dvd.mpr (dvd_mul_right _ _))))
  exact reduce_modEq (Nat.div_mul_cancel hdvd)

end Verif.X64.P256
