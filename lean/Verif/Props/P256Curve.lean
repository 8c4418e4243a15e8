/-
The amd64 implementation of the SM2 curve: inversions, recoding, point routines and scalar
multiplications (C54, C55, C57, C78 to C85).

The arithmetic of the point routines is inexact for a few operands (C56).  A result is right if it
does not depend on an inexact operation; `ExactMult` and its relatives (Spec/P256Mult, P256Point) say
that, and can be evaluated for every input.
-/
import Verif.Lemmas.P256Curve
import Verif.Lemmas.P256Inv
import Verif.Lemmas.P256Affine
import Verif.Lemmas.P256Select
import Verif.Lemmas.SM2
import Verif.Spec.P256Point
import Verif.Model.SM2Amd64
import Verif.Props.P256Field
import Verif.Props.SM2Sign

namespace Verif.Props

open Verif.X64 Verif.X64.P256 Verif.Spec Verif.Spec.P256

/-- The SM2 field prime. -/
local notation "p" => Curves.sm2.P
/-- The order of the SM2 group. -/
local notation "n" => Curves.sm2.N

/-! ### C54: inversions -/

/-- C54: Inverse(k) is the inverse of |k| modulo the group order, fully reduced, unless k is a
multiple of the order. -/
theorem C54_inverse (k : ℤ) (hk : ¬ (n : ℤ) ∣ k) :
    inverse k < n ∧ (inverse k : ℤ) * |k| ≡ 1 [ZMOD n] := by
  have hk' : ((|k| : ℤ) : L) ≠ 0 := by
    rw [Ne, ZMod.intCast_zmod_eq_zero_iff_dvd, dvd_abs]
    exact hk
  refine ⟨by rw [inverse_val]; exact ZMod.val_lt _, ?_⟩
  rw [← ZMod.intCast_eq_intCast_iff]
  rw [Int.cast_mul, Int.cast_natCast, Int.cast_one, inverse_val, ZMod.natCast_zmod_val,
    inv_mul_cancel₀ hk']

/-- C54: for a multiple of the order Inverse returns 0. -/
theorem C54_inverse_zero (k : ℤ) (hk : (n : ℤ) ∣ k) : inverse k = 0 := by
  have hk' : ((|k| : ℤ) : L) = 0 := by
    rw [ZMod.intCast_zmod_eq_zero_iff_dvd, dvd_abs]
    exact hk
  rw [inverse_val, hk', inv_zero, ZMod.val_zero]

/-- A case that meets the hypotheses. -/
example : ¬ (n : ℤ) ∣ 12345 ∧ ¬ (n : ℤ) ∣ -(2 : ℤ) ^ 300 ∧ inverse 12345 * 12345 % n = 1 ∧
    (n : ℤ) ∣ 3 * n := by decide +kernel

/-- C54: p256Inverse inverts in the field.  Elements are in the Montgomery domain: `a` stands for
`a / 2^256`, so the product with the inverse is `2^512`. -/
theorem C54_field_inverse (a : ℕ) (ha : a < 2 ^ 256) (h0 : ¬ p ∣ a) :
    invP a < 2 ^ 256 ∧ invP a * a ≡ 2 ^ 512 [MOD p] := by
  have hr : Rel (some a) a ((a : K) * (2 ^ 256)⁻¹) :=
    Rel.of ha (by rw [mul_assoc, inv_mul_cancel₀ R_ne, mul_one])
  have h := rel_ops.toMulRel.invP hr
  have hs : (invP (some a)).isSome = true :=
    some_mul.invP (b := some a) (c := some a) (a := some a) rfl
  obtain ⟨w, hw⟩ := Option.isSome_iff_exists.1 hs
  have hv := (h.ok w hw).2
  refine ⟨h.lt, ?_⟩
  rw [← ZMod.natCast_eq_natCast_iff]
  push_cast
  have ha' : ((a : ℕ) : K) ≠ 0 := by rwa [Ne, ZMod.natCast_eq_zero_iff]
  rw [hv, invP_inv, show (2 : K) ^ 512 = 2 ^ 256 * 2 ^ 256 by rw [← pow_add]]
  have hR := R_ne
  generalize (2 : K) ^ 256 = R at *
  field_simp

/-- The inverse of zero is zero. -/
theorem C54_field_inverse_zero (a : ℕ) (ha : a < 2 ^ 256) (h0 : p ∣ a) : invP a ≡ 0 [MOD p] := by
  have ha' : ((a : ℕ) : K) = 0 := by rwa [ZMod.natCast_eq_zero_iff]
  have hr : Rel (some a) a 0 := Rel.of ha (by rw [ha', zero_mul])
  have h := rel_ops.toMulRel.invP hr
  have hs : (invP (some a)).isSome = true :=
    some_mul.invP (b := some a) (c := some a) (a := some a) rfl
  obtain ⟨w, hw⟩ := Option.isSome_iff_exists.1 hs
  have hv := (h.ok w hw).2
  rw [← ZMod.natCast_eq_natCast_iff, hv, invP_inv, inv_zero, zero_mul, Nat.cast_zero]

/-- Cases that meet the hypotheses: a reduced and an unreduced number, and a zero that is not reduced. -/
example : (7 < 2 ^ 256 ∧ ¬ p ∣ 7) ∧ (p + 7 < 2 ^ 256 ∧ ¬ p ∣ p + 7) ∧ (p < 2 ^ 256 ∧ p ∣ p) := by
  decide +kernel

/-! ### C55: recoding -/

/-- C55: p256ScalarMult reads a digit from the two top bits, fifty from overlapping windows and one from
the lowest five bits.  Weighted by powers of 32 they add up to the scalar. -/
theorem C55_booth5 (k : ℕ) (hk : k < 2 ^ 256) :
    digit (boothW5 ((word k 3 >>> 62) &&& 0x3f)) * (2 : ℤ) ^ 255 +
      ∑ i ∈ Finset.range 50,
        digit (boothW5 (window k (249 - 5 * i) 0x3f)) * (2 : ℤ) ^ (250 - 5 * i) +
      digit (boothW5 ((word k 0 <<< 1) &&& 0x3f)) = k := by
  have h := top_sum hk 50 le_rfl
  rw [show 254 - 5 * 50 = 4 by rfl, show 255 - 5 * 50 = 5 by rfl] at h
  rw [h]
  have := top_last k
  rw [← this]
  ring

/-- C55: the digits index the table of sixteen multiples, or are 0. -/
theorem C55_booth5_range (w : X64.W) : |digit (boothW5 (w &&& 0x3f))| ≤ 16 := by
  have hw : (w &&& 0x3f).toNat < 64 := by
    have := mask_toNat w (m := 6) (by decide)
    have h2 : (w &&& 0x3f).toNat = w.toNat % 2 ^ 6 := this
    rw [h2]
    exact Nat.mod_lt _ (by decide)
  have h := (booth5 hw).2.1
  unfold digit
  rw [abs_le]
  split <;> omega

/-- C55: p256BaseMult reads a digit from the lowest seven bits and 36 from overlapping windows.
Weighted by powers of 128 they add up to the scalar. -/
theorem C55_booth7 (k : ℕ) (hk : k < 2 ^ 256) :
    digit (boothW7 ((word k 0 <<< 1) &&& 0xff)) +
      ∑ i ∈ Finset.range 36, digit (boothW7 (window k (7 * (i + 1) - 1) 0xff)) * 2 ^ (7 * (i + 1)) =
    k := (low_sum hk 36 le_rfl).trans (low_last hk)

/-- C55: the digits index a row of 64 multiples, or are 0. -/
theorem C55_booth7_range (w : X64.W) : |digit (boothW7 (w &&& 0xff))| ≤ 64 := by
  have hw : (w &&& 0xff).toNat < 256 := by
    have := mask_toNat w (m := 8) (by decide)
    have h2 : (w &&& 0xff).toNat = w.toNat % 2 ^ 8 := this
    rw [h2]
    exact Nat.mod_lt _ (by decide)
  have h := (booth7 hw).2
  unfold digit
  rw [abs_le]
  split <;> omega

/-- The digits of a concrete scalar: negative ones occur. -/
example : (digit (boothW5 (window (2 ^ 255 + 2 ^ 9) 4 0x3f)) = -16) ∧
    digit (boothW7 ((word (2 ^ 255 + 127) 0 <<< 1) &&& 0xff)) = -1 := by decide +kernel

/-! ### C57: multiplication of a point -/

/-- C57, what ScalarMult returns: for every point of the curve (infinity is (0, 0)), given by any
coordinates that reduce to it, and every scalar, `k P` except for the residue `n - 6` of the scalar,
for which it returns (0, 0).  Missing: runs that depend on an inexact operation, and the residue
`n - 6`; both give wrong results (`C57_wrong_point`, `C57_wrong_scalar`). -/
theorem C57_scalarMult_partial (P : SM2.Point) (x y : ℕ) (hP : xy P = (x % p, y % p))
    (scalar : Bytes) (he : ExactMult x y scalar) :
    scalarMult x y scalar =
      if natOfBytes scalar % n = n - 6 then (0, 0) else xy (natOfBytes scalar • P) :=
  scalarMult_xy hP he

/-- Cases that meet the hypotheses: the base point and one with unreduced coordinates. -/
example : ∃ P : SM2.Point, xy P = (Curves.sm2.Gx % p, Curves.sm2.Gy % p) ∧
    ExactMult Curves.sm2.Gx Curves.sm2.Gy (bytesOfNat (n - 12345)) ∧
    xy P = ((Curves.sm2.Gx + p) % p, (Curves.sm2.Gy + p) % p) ∧
    ExactMult (Curves.sm2.Gx + p) (Curves.sm2.Gy + p) (bytesOfNat (2 ^ 264 + 99)) := by
  obtain ⟨G, hG⟩ := good_sm2.exists_G
  refine ⟨G, ?_⟩
  rw [hG]
  decide +kernel

/-- C57 is false for the scalar `n - 6`: `(n - 6) P` is not infinity for any point of the curve other
than infinity itself, but ScalarMult returns (0, 0) for it in every exact run, for instance for the base
point. -/
theorem C57_wrong_scalar :
    (∀ P : SM2.Point, P ≠ 0 → xy ((n - 6) • P) ≠ (0, 0)) ∧
    (∀ (P : SM2.Point) (x y : ℕ), xy P = (x % p, y % p) →
      ExactMult x y (bytesOfNat (n - 6)) → scalarMult x y (bytesOfNat (n - 6)) = (0, 0)) ∧
    scalarMult Curves.sm2.Gx Curves.sm2.Gy (bytesOfNat (n - 6)) = (0, 0) := by
  refine ⟨fun P hP h => ?_, fun P x y h he => ?_, by decide +kernel⟩
  · rw [Verif.Affine.xy_eq_zero_iff good_sm2.ok, ← natCast_zsmul, zsmul_eq_zero amd64_sm2 hP,
      Int.natCast_dvd_natCast] at h
    exact absurd (Nat.le_of_dvd (by decide +kernel) h) (by decide +kernel)
  · rw [scalarMult_xy h he, if_pos (by decide +kernel)]

/-- The coordinates of a point for which ScalarMult is wrong: `3299737907558 G`. -/
def badX : ℕ := 0xf611e5fd5e0912f9468ea1d6062cf42584f98ea100221774645714a487a2bf11
/-- See `badX`. -/
def badY : ℕ := 0xabc1847fec173c03efac225d701edd90ba9ed926dca0d6740518a98f137d8a89

theorem bad_on : OnCurve Curves.sm2 (-3) badX badY := by decide +kernel

/-- C57 is false for some points: a point of the curve, given by its reduced coordinates, such that 30
times it is not what ScalarMult returns. -/
theorem C57_wrong_point :
    ∃ P : SM2.Point, xy P = (badX, badY) ∧ scalarMult badX badY [30] ≠ xy (30 • P) := by
  refine ⟨Verif.Affine.ofXY good_sm2.ok bad_on, ?_, ?_⟩
  · exact Verif.Affine.xy_ofXY good_sm2.ok bad_on (by decide +kernel) (by decide +kernel)
  · rw [← Verif.Affine.smul_eq good_sm2.ok _ Curves.sm2_aN,
      Verif.Affine.xy_ofXY good_sm2.ok bad_on (by decide +kernel) (by decide +kernel)]
    decide +kernel

/-- C57: so the amd64 methods do not meet the contract of `elliptic.Curve`. -/
theorem C57_not_lawful (E : Verif.SM2.Ext) : ¬ (Verif.SM2.amd64 E).ops.Lawful Curves.sm2 (-3) := by
  intro h
  obtain ⟨G, hG⟩ := good_sm2.exists_G
  have h1 := h.mult G (n - 6)
  rw [hG] at h1
  have h2 : (Verif.SM2.amd64 E).ops.mult (Curves.sm2.Gx, Curves.sm2.Gy) (n - 6) = (0, 0) :=
    C57_wrong_scalar.2.2
  exact C57_wrong_scalar.1 G (good_sm2.G_ne_zero hG) (h1.symm.trans h2)

/-! ### C78: byte order -/

/-- C78: p256_sm2BigToLittle and p256_sm2LittleToBig reverse 32 bytes, whatever they overlap, and write
nowhere else.  So the four words written from 32 bytes hold the number the bytes denote in big-endian
order, and the 32 bytes written from four words denote their number. -/
theorem C78_bytes (s : St) :
    let s' := exec bigToLittle s
    bytes32 s'.mem (s.arg 0) = (bytes32 s.mem (s.arg 24)).reverse ∧
    num s'.mem (s.arg 0) = natOfBytes (bytes32 s.mem (s.arg 24)) ∧
    natOfBytes (bytes32 s'.mem (s.arg 0)) = num s.mem (s.arg 24) ∧
    OnlyAt (s.arg 0) s.mem s'.mem := by
  dsimp only
  obtain ⟨h1, h2⟩ := exec_bigToLittle s
  refine ⟨h1, ?_, ?_, h2⟩
  · rw [← bytes32_rev, h1, List.reverse_reverse]
  · rw [h1, bytes32_rev]

/-! ### C79, C80, C81: the point routines -/

theorem jacAt_eq (m : X64.W → X64.W) (a : X64.W) : jacAt m a = rdJac m a := by
  unfold jacAt rdJac
  rw [num_eq, num_eq, num_eq]

/-- The field elements the words stand for. -/
noncomputable def fieldJac (j : Jac ℕ) : Jac K :=
  ⟨(j.x : K) * (2 ^ 256)⁻¹, (j.y : K) * (2 ^ 256)⁻¹, (j.z : K) * (2 ^ 256)⁻¹⟩

theorem rel_num (v : ℕ) (h : v < 2 ^ 256) : Rel (some v) v ((v : K) * (2 ^ 256)⁻¹) :=
  Rel.of h (by rw [mul_assoc, inv_mul_cancel₀ R_ne, mul_one])

theorem rel_jacAt (m : X64.W → X64.W) (a : X64.W) :
    JRel Rel (known (jacAt m a)) (rdJac m a) (fieldJac (rdJac m a)) := by
  rw [jacAt_eq]
  exact ⟨rel_num _ (rd4_lt _ _), rel_num _ (rd4_lt _ _), rel_num _ (rd4_lt _ _)⟩

theorem stands_iff (m : X64.W → X64.W) (a : X64.W) (Q : SM2.Point) :
    Stands m a Q ↔ Reps (fieldJac (rdJac m a)) Q := by
  have hR := R_ne
  have hn : ∀ a, num m a = rd4 m a := fun a => num_eq m a
  cases Q with
  | zero =>
    change (num m (a + 64) : K) = 0 ↔ (rd4 m (a + 64) : K) * (2 ^ 256)⁻¹ = 0
    rw [hn, mul_eq_zero, or_iff_left (inv_ne_zero hR)]
  | some x y h =>
    change (∃ z : K, z ≠ 0 ∧ (num m a : K) = x * z ^ 2 * 2 ^ 256 ∧
      (num m (a + 32) : K) = y * z ^ 3 * 2 ^ 256 ∧ (num m (a + 64) : K) = z * 2 ^ 256) ↔
      ((rd4 m (a + 64) : K) * (2 ^ 256)⁻¹ ≠ 0 ∧
        (rd4 m a : K) * (2 ^ 256)⁻¹ = x * ((rd4 m (a + 64) : K) * (2 ^ 256)⁻¹) ^ 2 ∧
        (rd4 m (a + 32) : K) * (2 ^ 256)⁻¹ = y * ((rd4 m (a + 64) : K) * (2 ^ 256)⁻¹) ^ 3)
    simp only [hn]
    generalize (2 : K) ^ 256 = R at *
    constructor
    · rintro ⟨z, hz, h1, h2, h3⟩
      rw [h1, h2, h3, mul_assoc, mul_assoc, mul_assoc, mul_assoc, mul_inv_cancel₀ hR]
      simp only [mul_one]
      exact ⟨hz, trivial, trivial⟩
    · rintro ⟨hz, h1, h2⟩
      refine ⟨_, hz, ?_, ?_, ?_⟩
      · rw [← h1, mul_assoc, inv_mul_cancel₀ hR, mul_one]
      · rw [← h2, mul_assoc, inv_mul_cancel₀ hR, mul_one]
      · rw [mul_assoc, inv_mul_cancel₀ hR, mul_one]

/-- An exact result stands for what the field computation stands for. -/
theorem fieldJac_rel {o : Jac (Option ℕ)} {v : Jac ℕ} {j : Jac K} (h : JRel Rel o v j)
    (hk : Known o) : fieldJac v = j := by
  have hR := R_ne
  have key : ∀ {o : Option ℕ} {v : ℕ} {x : K}, Rel o v x → o.isSome = true →
      (v : K) * (2 ^ 256)⁻¹ = x := by
    intro o v x h hs
    obtain ⟨w, hw⟩ := Option.isSome_iff_exists.1 hs
    rw [(h.ok w hw).2, mul_assoc, mul_inv_cancel₀ hR, mul_one]
  unfold fieldJac
  rw [key h.x hk.1, key h.y hk.2.1, key h.z hk.2.2]

theorem stands_of_wrote {m m' : X64.W → X64.W} {a : X64.W} {o : Jac (Option ℕ)} {v : Jac ℕ}
    {j : Jac K} {Q : SM2.Point} (hw : Wrote m m' a v) (h : JRel Rel o v j) (hk : Known o)
    (hQ : Reps j Q) : Stands m' a Q ∧ OnlyAt12 a m m' := by
  refine ⟨?_, hw.2⟩
  rw [stands_iff, hw.1, fieldJac_rel h hk]
  exact hQ

/-- C79: p256_sm2PointAddAsm(res, in1, in2), from every machine state and for any overlap of the
arguments: the result stands for the sum of two different points other than infinity.  In all other
cases the result stands for infinity.  Missing: the sum in those cases (the doubling in particular), which
is wrong (`C79_wrong`), and additions that depend on an inexact operation. -/
theorem C79_pointAdd_partial (s : St) (P Q : SM2.Point) (hP : Stands s.mem (s.arg 24) P)
    (hQ : Stands s.mem (s.arg 48) Q) (he : ExactAdd s.mem (s.arg 24) (s.arg 48)) :
    let s' := exec pointAddAsm s
    (P ≠ 0 → Q ≠ 0 → P ≠ Q → Stands s'.mem (s.arg 0) (P + Q)) ∧
    (P = 0 ∨ Q = 0 ∨ P = Q → Stands s'.mem (s.arg 0) 0) ∧
    OnlyAt12 (s.arg 0) s.mem s'.mem := by
  dsimp only
  rw [stands_iff] at hP hQ
  have hw := exec_pointAdd s
  have hr := (rel_jacAt s.mem (s.arg 24)).add rel_ops (rel_jacAt s.mem (s.arg 48))
  exact ⟨fun h1 h2 h3 => (stands_of_wrote hw hr he (reps_add hP hQ h1 h2 h3)).1,
    fun h => (stands_of_wrote hw hr he (reps_add_exc hP hQ h)).1, hw.2⟩

/-- C80: p256_sm2PointDoubleAsm(res, in): the result stands for twice the point, infinity included.
Missing: doublings that depend on an inexact operation, which may be wrong (`C80_wrong`). -/
theorem C80_pointDouble_partial (s : St) (P : SM2.Point) (hP : Stands s.mem (s.arg 24) P)
    (he : ExactDouble s.mem (s.arg 24)) :
    let s' := exec pointDoubleAsm s
    Stands s'.mem (s.arg 0) (P + P) ∧ OnlyAt12 (s.arg 0) s.mem s'.mem := by
  dsimp only
  rw [stands_iff] at hP
  exact stands_of_wrote (exec_pointDouble s) ((rel_jacAt s.mem (s.arg 24)).double rel_ops) he
    (reps_double good_sm2.ok amd64_sm2.root hP)

theorem standsXY_reps {m : X64.W → X64.W} {a : X64.W} {Q : SM2.Point} (h : StandsXY m a Q) :
    Reps (⟨(rd4 m a : K) * (2 ^ 256)⁻¹, (rd4 m (a + 32) : K) * (2 ^ 256)⁻¹, 1⟩ : Jac K) Q := by
  have hR := R_ne
  cases Q with
  | zero => exact h.elim
  | some x y hn =>
    obtain ⟨h1, h2⟩ := h
    rw [num_eq] at h1 h2
    have h1' : (rd4 m a : K) = x * 2 ^ 256 := h1
    have h2' : (rd4 m (a + 32) : K) = y * 2 ^ 256 := h2
    refine ⟨one_ne_zero, ?_, ?_⟩
    · change (rd4 m a : K) * (2 ^ 256)⁻¹ = x * 1 ^ 2
      rw [h1', mul_assoc, mul_inv_cancel₀ hR, one_pow]
    · change (rd4 m (a + 32) : K) * (2 ^ 256)⁻¹ = y * 1 ^ 3
      rw [h2', mul_assoc, mul_inv_cancel₀ hR, one_pow]

/-- The point at the third argument of p256_sm2PointAddAffineAsm, with its sign. -/
theorem rel_affine (s : St) (sign : Bool) :
    Rel (if sign then negA (some (num s.mem (s.arg 48 + 32))) else some (num s.mem (s.arg 48 + 32)))
      (if sign then negA (rd4 s.mem (s.arg 48 + 32)) else rd4 s.mem (s.arg 48 + 32))
      (if sign then -((rd4 s.mem (s.arg 48 + 32) : K) * (2 ^ 256)⁻¹) else
        (rd4 s.mem (s.arg 48 + 32) : K) * (2 ^ 256)⁻¹) := by
  rw [num_eq]
  have h := rel_num (rd4 s.mem (s.arg 48 + 32)) (rd4_lt _ _)
  cases sign
  · exact h
  · exact h.negA

/-- C81: p256_sm2PointAddAffineAsm(res, in1, in2, sign, sel, zero), where `Q` is the point with the
affine coordinates at in2: with `zero = 0` the result is `±Q`, else with `sel = 0` it is the point at in1
(unchanged, word for word), else `P ± Q` for `P` not infinity and not `±Q`; it is infinity in the two other
cases.  Only 32 bits of sel and zero matter.  Missing: the sum in those cases, which is wrong
(`C81_wrong`), and additions that depend on an inexact operation. -/
theorem C81_pointAddAffine_partial (s : St) (P Q : SM2.Point) (hP : Stands s.mem (s.arg 24) P)
    (hQ : StandsXY s.mem (s.arg 48) Q) :
    let s' := exec pointAddAffineAsm s
    let Q' := if s.arg 72 = 0 then Q else -Q
    OnlyAt12 (s.arg 0) s.mem s'.mem ∧
    ((s.arg 88).toNat % 2 ^ 32 = 0 → Stands s'.mem (s.arg 0) Q') ∧
    ((s.arg 88).toNat % 2 ^ 32 ≠ 0 → (s.arg 80).toNat % 2 ^ 32 = 0 →
      jacAt s'.mem (s.arg 0) = jacAt s.mem (s.arg 24)) ∧
    ((s.arg 88).toNat % 2 ^ 32 ≠ 0 → (s.arg 80).toNat % 2 ^ 32 ≠ 0 →
      ExactAddAffine s.mem (s.arg 24) (s.arg 48) (decide (s.arg 72 ≠ 0)) →
      (P ≠ 0 → P ≠ Q' → Stands s'.mem (s.arg 0) (P + Q')) ∧
      (P = 0 ∨ P = Q' → Stands s'.mem (s.arg 0) 0)) := by
  dsimp only
  have hw := exec_pointAddAffine s
  rw [stands_iff] at hP
  have hy := rel_affine s (decide (s.arg 72 ≠ 0))
  have hx := rel_num (rd4 s.mem (s.arg 48)) (rd4_lt _ _)
  have hQ' : Reps (⟨(rd4 s.mem (s.arg 48) : K) * (2 ^ 256)⁻¹,
      if decide (s.arg 72 ≠ 0) = true then -((rd4 s.mem (s.arg 48 + 32) : K) * (2 ^ 256)⁻¹) else
        (rd4 s.mem (s.arg 48 + 32) : K) * (2 ^ 256)⁻¹, 1⟩ : Jac K)
      (if s.arg 72 = 0 then Q else -Q) := by
    have h := standsXY_reps hQ
    by_cases h0 : s.arg 72 = 0
    · rw [if_pos h0, if_neg (by simpa using h0)]
      exact h
    · rw [if_neg h0, if_pos (by simpa using h0)]
      exact reps_neg h
  refine ⟨hw.2, fun h0 => ?_, fun h0 h1 => ?_, fun h0 h1 he => ?_⟩
  · have hv : pointAddAffine oneM (rdJac s.mem (s.arg 24)) (rd4 s.mem (s.arg 48))
        (rd4 s.mem (s.arg 48 + 32)) (decide (s.arg 72 ≠ 0)) ((s.arg 80).toNat % 2 ^ 32)
        ((s.arg 88).toNat % 2 ^ 32) = ⟨rd4 s.mem (s.arg 48),
          if decide (s.arg 72 ≠ 0) = true then negA (rd4 s.mem (s.arg 48 + 32)) else
            rd4 s.mem (s.arg 48 + 32), Ops.one⟩ := by
      unfold pointAddAffine
      dsimp only
      rw [if_pos h0]
      rfl
    rw [hv] at hw
    refine (stands_of_wrote hw (o := ⟨some (rd4 s.mem (s.arg 48)), if decide (s.arg 72 ≠ 0) = true then
      negA (some (num s.mem (s.arg 48 + 32))) else some (num s.mem (s.arg 48 + 32)), Ops.one⟩)
      ⟨hx, hy, Rel.one⟩ ⟨rfl, ?_, rfl⟩ hQ').1
    split <;> rfl
  · have := hw.1
    unfold pointAddAffine at this
    dsimp only at this
    rw [if_neg h0, if_pos h1] at this
    rw [jacAt_eq, jacAt_eq, this]
  · have hv : pointAddAffine oneM (rdJac s.mem (s.arg 24)) (rd4 s.mem (s.arg 48))
        (rd4 s.mem (s.arg 48 + 32)) (decide (s.arg 72 ≠ 0)) ((s.arg 80).toNat % 2 ^ 32)
        ((s.arg 88).toNat % 2 ^ 32) = addAffine (rdJac s.mem (s.arg 24)) (rd4 s.mem (s.arg 48))
          (if decide (s.arg 72 ≠ 0) = true then negA (rd4 s.mem (s.arg 48 + 32)) else
            rd4 s.mem (s.arg 48 + 32)) := by
      unfold pointAddAffine
      dsimp only
      rw [if_neg h0, if_neg h1]
    rw [hv] at hw
    have hr := (rel_jacAt s.mem (s.arg 24)).addAffine rel_ops hx hy
    unfold ExactAddAffine at he
    rw [num_eq s.mem (s.arg 48)] at he
    exact ⟨fun hP0 hPQ => (stands_of_wrote hw hr he (reps_addAffine hP hQ' hP0 hPQ)).1,
      fun h => (stands_of_wrote hw hr he (reps_addAffine_exc hP hQ' h)).1⟩

/-! A concrete memory: the base point at address 0, `2 G` at address 96, both with `z = 1`. -/

/-- The numbers in memory, each of four words. -/
def exNums : List ℕ :=
  [0x91167a5ee1c13b05d6a1ed99ac24c3c33e7981eddca6c05061328990f418029e,
   0x63cd65d481d735bd8d4cfb066e2a48f8c1f5e5788d3295fac1354e593c2d0ddd, oneM,
   0x0d7e9c18caa5736a5349d94b5788cd2483bdc9ba2d8fa9380af037bfbc3be46a,
   0x947e74656c21bdf5c7b145169b7157acccbd8d37c4a8e82b6a7e1a1d69db9ac1, oneM]

/-- The memory that holds them from address 0. -/
def exMem (a : X64.W) : X64.W := word (exNums.getD (a.toNat / 32) 0) (a.toNat % 32 / 8)

/-- A state with this memory; the arguments are 4096, 0, 96, 1, 1 and 1. -/
def exState : St :=
  { memState 4096 0 96 exMem with
    arg := fun i => if i = 0 then 4096 else if i = 24 then 0 else if i = 48 then 96 else
      1 }

/-- The point with given coordinates stands where they are in memory. -/
theorem stands_ofXY {m : X64.W → X64.W} {a : X64.W} {x y : ℕ} (h : OnCurve Curves.sm2 (-3) x y)
    (hx : num m a ≡ x * 2 ^ 256 [MOD p]) (hy : num m (a + 32) ≡ y * 2 ^ 256 [MOD p])
    (hz : num m (a + 64) ≡ 2 ^ 256 [MOD p]) : Stands m a (Verif.Affine.ofXY good_sm2.ok h) := by
  have hx' := (ZMod.natCast_eq_natCast_iff _ _ _).2 hx
  have hy' := (ZMod.natCast_eq_natCast_iff _ _ _).2 hy
  have hz' := (ZMod.natCast_eq_natCast_iff _ _ _).2 hz
  refine ⟨1, one_ne_zero, ?_, ?_, ?_⟩
  · rw [one_pow, mul_one]; exact_mod_cast hx'
  · rw [one_pow, mul_one]; exact_mod_cast hy'
  · rw [one_mul]; exact_mod_cast hz'

theorem standsXY_ofXY {m : X64.W → X64.W} {a : X64.W} {x y : ℕ} (h : OnCurve Curves.sm2 (-3) x y)
    (hx : num m a ≡ x * 2 ^ 256 [MOD p]) (hy : num m (a + 32) ≡ y * 2 ^ 256 [MOD p]) :
    StandsXY m a (Verif.Affine.ofXY good_sm2.ok h) := by
  have hx' := (ZMod.natCast_eq_natCast_iff _ _ _).2 hx
  have hy' := (ZMod.natCast_eq_natCast_iff _ _ _).2 hy
  exact ⟨by exact_mod_cast hx', by exact_mod_cast hy'⟩

/-- The coordinates of `2 G`. -/
def twoX : ℕ := 0x56cefd60d7c87c000d58ef57fa73ba4d9c0dfa08c08a7331495c2e1da3f2bd52
/-- See `twoX`. -/
def twoY : ℕ := 0x31b7e7e6cc8189f668535ce0f8eaf1bd6de84c182f6c8e716f780d3a970a23c3

/-- A case that meets the hypotheses of the three theorems: two different points other than infinity, and
not opposite, for which the routines are exact. -/
example : ∃ P Q : SM2.Point, P ≠ 0 ∧ Q ≠ 0 ∧ P ≠ Q ∧ P ≠ -Q ∧
    Stands exState.mem (exState.arg 24) P ∧
    Stands exState.mem (exState.arg 48) Q ∧
    StandsXY exState.mem (exState.arg 48) Q ∧
    ExactAdd exState.mem (exState.arg 24) (exState.arg 48) ∧
    ExactDouble exState.mem (exState.arg 24) ∧
    (∀ b, ExactAddAffine exState.mem (exState.arg 24) (exState.arg 48) b) ∧
    (exState.arg 80).toNat % 2 ^ 32 ≠ 0 ∧ (exState.arg 88).toNat % 2 ^ 32 ≠ 0 := by
  have h1 : OnCurve Curves.sm2 (-3) Curves.sm2.Gx Curves.sm2.Gy := by decide +kernel
  have h2 : OnCurve Curves.sm2 (-3) twoX twoY := by decide +kernel
  have e1 := Verif.Affine.xy_ofXY good_sm2.ok h1 (by decide +kernel) (by decide +kernel)
  have e2 := Verif.Affine.xy_ofXY good_sm2.ok h2 (by decide +kernel) (by decide +kernel)
  refine ⟨Verif.Affine.ofXY good_sm2.ok h1, Verif.Affine.ofXY good_sm2.ok h2, nofun, nofun, ?_, ?_,
    stands_ofXY h1 ?_ ?_ ?_, stands_ofXY h2 ?_ ?_ ?_, standsXY_ofXY h2 ?_ ?_, ?_⟩
  · intro h
    rw [h, e2] at e1
    exact absurd e1 (by decide +kernel)
  · intro h
    have h3 := congrArg (fun Q => (xy Q).1) h
    have h4 : (xy (-Verif.Affine.ofXY good_sm2.ok h2)).1 = (xy (Verif.Affine.ofXY good_sm2.ok h2)).1 :=
      rfl
    rw [h4, e1, e2] at h3
    exact absurd h3 (by decide +kernel)
  all_goals decide +kernel

/-! ### C82: selection -/

/-- C82: p256_sm2MovCond(res, a, b, cond) copies the twelve words of b if the low 32 bits of cond are 0,
else those of a. -/
theorem C82_movCond (s : St) :
    let s' := exec movCond s
    jacAt s'.mem (s.arg 0) =
      (if (s.arg 72).toNat % 2 ^ 32 = 0 then jacAt s.mem (s.arg 48) else jacAt s.mem (s.arg 24)) ∧
    OnlyAt12 (s.arg 0) s.mem s'.mem := by
  dsimp only
  have hw := exec_movCond s
  exact ⟨by rw [jacAt_eq, jacAt_eq, jacAt_eq, hw.1], hw.2⟩

/-- C82: p256_sm2Select(point, table, idx) ends after sixteen rounds; it copies entry idx (from 1) of a
table of sixteen points, and zeros for any other index.  Only 32 bits of the index matter. -/
theorem C82_select (s : St) (fuel : ℕ) (hf : 16 ≤ fuel) :
    ∃ s', select fuel s = some s' ∧ OnlyAt12 (s.arg 0) s.mem s'.mem ∧
      let i := (s.arg 48).toNat % 2 ^ 32
      (1 ≤ i → i ≤ 16 →
        jacAt s'.mem (s.arg 0) = jacAt s.mem (s.arg 24 + BitVec.ofNat 64 (96 * (i - 1)))) ∧
      (i = 0 ∨ 16 < i → jacAt s'.mem (s.arg 0) = ⟨0, 0, 0⟩) := by
  obtain ⟨s', h1, h2⟩ := exec_select s fuel hf
  refine ⟨s', h1, h2.2, fun ha hb => ?_, fun hc => ?_⟩
  · rw [jacAt_eq, jacAt_eq, h2.1, if_pos ⟨ha, hb⟩]
  · rw [jacAt_eq, h2.1, if_neg (by omega)]

/-- C82: p256_sm2SelectBase(point, table, idx) ends after 32 rounds; it copies entry idx (from 1) of a
table of 64 affine points, and zeros for any other index. -/
theorem C82_selectBase (s : St) (fuel : ℕ) (hf : 32 ≤ fuel) :
    ∃ s', selectBase fuel s = some s' ∧ OnlyAt8 (s.arg 0) s.mem s'.mem ∧
      let i := (s.arg 48).toNat % 2 ^ 32
      (1 ≤ i → i ≤ 64 →
        num s'.mem (s.arg 0) = num s.mem (s.arg 24 + BitVec.ofNat 64 (64 * (i - 1))) ∧
        num s'.mem (s.arg 0 + 32) = num s.mem (s.arg 24 + BitVec.ofNat 64 (64 * (i - 1)) + 32)) ∧
      (i = 0 ∨ 64 < i → num s'.mem (s.arg 0) = 0 ∧ num s'.mem (s.arg 0 + 32) = 0) := by
  obtain ⟨s', h1, h2⟩ := exec_selectBase s fuel hf
  refine ⟨s', h1, h2.2.2, fun ha hb => ?_, fun hc => ?_⟩
  · simp only [num_eq]
    rw [h2.1, h2.2.1, if_pos ⟨ha, hb⟩, if_pos ⟨ha, hb⟩]
    exact ⟨rfl, rfl⟩
  · simp only [num_eq]
    rw [h2.1, h2.2.1, if_neg (by omega), if_neg (by omega)]
    exact ⟨rfl, rfl⟩

/-! ### C83, C84: multiplication of the base point, and of two points -/

/-- C83: ScalarBaseMult(k) is `k G` for every scalar, 0 and multiples of the order included.  Missing:
runs that depend on an inexact operation. -/
theorem C83_scalarBaseMult_partial (G : SM2.Point) (hG : xy G = (Curves.sm2.Gx, Curves.sm2.Gy))
    (scalar : Bytes) (he : ExactBase scalar) :
    scalarBaseMult scalar = xy (natOfBytes scalar • G) := scalarBaseMult_xy hG he

/-- C84: CombinedMult(P, s, t) for a point other than infinity and `s` not a multiple of the order:
`s G + t P`, but (0, 0) if `t` is a multiple of the order or `n - 6` modulo the order, or if the two
multiples are equal.  Missing: the sum in those cases and for `s` a multiple of the order, where it is
wrong (`C84_wrong`), and runs that depend on an inexact operation. -/
theorem C84_combinedMult_partial (G P : SM2.Point) (hG : xy G = (Curves.sm2.Gx, Curves.sm2.Gy))
    (hP0 : P ≠ 0) (x y : ℕ) (hP : xy P = (x % p, y % p)) (s t : Bytes)
    (hs : natOfBytes s % n ≠ 0) (he : ExactCombined x y s t) :
    combinedMult x y s t =
      if natOfBytes t % n = 0 ∨ natOfBytes t % n = n - 6 ∨ natOfBytes s • G = natOfBytes t • P
      then (0, 0) else xy (natOfBytes s • G + natOfBytes t • P) :=
  combinedMult_xy hG hP hP0 hs he

/-- C84 is false: `0 G + 1 G` is not `G`, `1 G + 0 G` and `1 G + 1 G` are (0, 0). -/
theorem C84_wrong :
    combinedMult Curves.sm2.Gx Curves.sm2.Gy [0] [1] ≠ (Curves.sm2.Gx, Curves.sm2.Gy) ∧
    combinedMult Curves.sm2.Gx Curves.sm2.Gy [1] [0] = (0, 0) ∧
    combinedMult Curves.sm2.Gx Curves.sm2.Gy [1] [1] = (0, 0) := by decide +kernel

/-- Cases that meet the hypotheses of the two theorems. -/
example : ∃ G P : SM2.Point, xy G = (Curves.sm2.Gx, Curves.sm2.Gy) ∧ P ≠ 0 ∧
    xy P = (twoX % p, twoY % p) ∧ ExactBase [0x12, 0x34, 0x56] ∧ ExactBase [] ∧
    natOfBytes [0x12, 0x34] % n ≠ 0 ∧ ExactCombined twoX twoY [0x12, 0x34] [0x56, 0x78] := by
  obtain ⟨G, hG⟩ := good_sm2.exists_G
  have h2 : OnCurve Curves.sm2 (-3) twoX twoY := by decide +kernel
  have e2 := Verif.Affine.xy_ofXY good_sm2.ok h2 (by decide +kernel) (by decide +kernel)
  refine ⟨G, Verif.Affine.ofXY good_sm2.ok h2, hG, nofun, ?_, ?_⟩
  · rw [e2]; decide +kernel
  · decide +kernel

/-! ### C85: SM2 verification on amd64 -/

/-- What `Verify` does with the point `s G + t P` it computed. -/
theorem verify_combine {E : Verif.SM2.Ext} {H : Bytes → Bytes} {pub : ECPub}
    (hc : pub.curve = Curves.sm2) {id msg mz : Bytes} (hz : Verif.SM2.getZ H msg pub id = .ok mz)
    (r s : ℤ) : Verif.SM2.verify E H pub id msg r s = true ↔
      1 ≤ r ∧ r < n ∧ 1 ≤ s ∧ s < n ∧ (r + s) % n ≠ 0 ∧
      Verif.SM2.combine E pub s.toNat ((r + s) % n).toNat ≠ (0, 0) ∧
      (((Verif.SM2.combine E pub s.toNat ((r + s) % n).toNat).1 : ℤ) + natOfBytes (H mz)) % n = r := by
  have hN0 : Curves.sm2.N ≠ 0 := by decide +kernel
  unfold Verif.SM2.verify
  simp only [hc, hz]
  rw [if_neg hN0]
  generalize Curves.sm2.N = N at *
  have ht0 := Int.emod_nonneg (r + s) (show (N : ℤ) ≠ 0 by omega)
  generalize Verif.SM2.combine E pub s.toNat ((r + s) % (N : ℤ)).toNat = q
  split_ifs with h1 h2 h3
  · simp only [false_iff]; rintro ⟨a, b, c, d, -⟩; omega
  · simp only [false_iff]; rintro ⟨a, b, c, d, e, -⟩; omega
  · simp only [false_iff]; rintro ⟨-, -, -, -, -, hq, -⟩
    exact hq (Prod.ext h3.1 h3.2)
  · rw [beq_iff_eq]
    constructor
    · intro e
      refine ⟨by omega, by omega, by omega, by omega, by omega, fun hq => h3 ?_, ?_⟩
      · rw [hq]; exact ⟨rfl, rfl⟩
      · rw [← e]; push_cast; rfl
    · rintro ⟨-, -, -, -, -, -, e⟩
      rw [← e]; push_cast; rfl

/-- C85: on amd64 `sm2.Verify` accepts exactly the signatures the standard's check accepts, except those
with `r + s = n - 6` modulo the order or `s G = (r + s) P`, which it rejects.  In particular it accepts no
others.  Missing: the signatures it rejects wrongly (`C85_rejects_valid`), and runs that depend on an
inexact operation. -/
theorem C85_verify_amd64_partial (E : Verif.SM2.Ext) (H : Bytes → Bytes) (G : SM2.Point)
    (hG : xy G = (Curves.sm2.Gx, Curves.sm2.Gy)) (P : SM2.Point) (hP : P ≠ 0) (pub : ECPub)
    (hc : pub.curve = Curves.sm2) (hpub : (pub.x, pub.y) = xy P) (id msg mz : Bytes)
    (hz : Verif.SM2.getZ H msg pub id = .ok mz) (r s : ℤ)
    (he : ExactCombined pub.x pub.y (bytesOfNat s.toNat) (bytesOfNat ((r + s) % n).toNat)) :
    Verif.SM2.verify (Verif.SM2.amd64 E) H pub id msg r s = true ↔
      SM2.Accepts G P (natOfBytes (H mz)) r s ∧
      ¬ ((r + s) % n = n - 6 ∨ s.toNat • G = ((r + s) % n).toNat • P) := by
  have hN0 : 0 < Curves.sm2.N := by decide +kernel
  rw [verify_combine hc hz]
  unfold SM2.Accepts
  by_cases hr : 1 ≤ r ∧ r < n ∧ 1 ≤ s ∧ s < n ∧ (r + s) % n ≠ 0
  · obtain ⟨h1, h2, h3, h4, h5⟩ := hr
    have ht0 := Int.emod_nonneg (r + s) (show (n : ℤ) ≠ 0 by omega)
    have ht1 := Int.emod_lt_of_pos (r + s) (show (0 : ℤ) < n by omega)
    have hs : natOfBytes (bytesOfNat s.toNat) % n ≠ 0 := by
      rw [Verif.SM2.natOfBytes_bytesOfNat, Nat.mod_eq_of_lt (by omega)]
      omega
    have hP' : xy P = (pub.x % p, pub.y % p) := by
      obtain ⟨-, hx, hy⟩ := Verif.Affine.xy_onCurve P hP
      rw [← hpub] at hx hy ⊢
      rw [Nat.mod_eq_of_lt hx, Nat.mod_eq_of_lt hy]
    have hq := C84_combinedMult_partial G P hG hP pub.x pub.y hP' _ _ hs he
    rw [Verif.SM2.natOfBytes_bytesOfNat, Verif.SM2.natOfBytes_bytesOfNat] at hq
    have hm : ((r + s) % (n : ℤ)).toNat % n = ((r + s) % (n : ℤ)).toNat :=
      Nat.mod_eq_of_lt (by omega)
    rw [hm] at hq
    have hcomb : Verif.SM2.combine (Verif.SM2.amd64 E) pub s.toNat ((r + s) % n).toNat =
        combinedMult pub.x pub.y (bytesOfNat s.toNat) (bytesOfNat ((r + s) % n).toNat) := rfl
    rw [hcomb, hq]
    have h6 : 6 < Curves.sm2.N := by decide +kernel
    by_cases hx : (r + s) % n = n - 6 ∨ s.toNat • G = ((r + s) % n).toNat • P
    · rw [if_pos (by rcases hx with hx | hx <;> [(right; left; omega); exact Or.inr (Or.inr hx)])]
      constructor
      · rintro ⟨-, -, -, -, -, h, -⟩
        exact absurd rfl h
      · rintro ⟨-, h⟩
        exact absurd hx h
    · rw [if_neg (by rintro (h | h | h) <;> [omega; (apply hx; left; omega); exact hx (Or.inr h)])]
      have hxy := not_congr (Verif.Affine.xy_eq_zero_iff good_sm2.ok
        (s.toNat • G + ((r + s) % n).toNat • P))
      constructor
      · rintro ⟨a, b, c, d, e, f, g⟩
        exact ⟨⟨a, b, c, d, e, hxy.1 f, by rw [add_comm]; exact g⟩, hx⟩
      · rintro ⟨⟨a, b, c, d, e, f, g⟩, -⟩
        exact ⟨a, b, c, d, e, hxy.2 f, by rw [add_comm]; exact g⟩
  · constructor
    · rintro ⟨a, b, c, d, e, -⟩
      exact absurd ⟨a, b, c, d, e⟩ hr
    · rintro ⟨⟨a, b, c, d, e, -⟩, -⟩
      exact absurd ⟨a, b, c, d, e⟩ hr

/-- A digest for which `(n - 7, 1)` is a valid signature under the public key `G`. -/
def exDigest : ℕ := 0x38b6f9e8979ad1d9fbf1ff7022a148853db99defa1f7eb4fae4619b16d9e167e

/-- C85 with the full equivalence is false: a signature the standard's check accepts and `Verify` rejects
on amd64. -/
theorem C85_rejects_valid : ∃ (G P : SM2.Point) (pub : ECPub) (H : Bytes → Bytes) (mz : Bytes) (r s : ℤ),
    xy G = (Curves.sm2.Gx, Curves.sm2.Gy) ∧ P ≠ 0 ∧ pub.curve = Curves.sm2 ∧ (pub.x, pub.y) = xy P ∧
    Verif.SM2.getZ H [] pub [] = .ok mz ∧ SM2.Accepts G P (natOfBytes (H mz)) r s ∧
    ∀ E, Verif.SM2.verify (Verif.SM2.amd64 E) H pub [] [] r s = false := by
  obtain ⟨G, hG⟩ := good_sm2.exists_G
  have hG0 := good_sm2.G_ne_zero hG
  let pub : ECPub := ⟨Curves.sm2, Curves.sm2.Gx, Curves.sm2.Gy⟩
  let H : Bytes → Bytes := fun _ => bytesOfNat exDigest
  obtain ⟨mz, hz⟩ : ∃ mz, Verif.SM2.getZ H [] pub [] = .ok mz := by
    unfold Verif.SM2.getZ; rw [if_neg (by simp [pub])]; exact ⟨_, rfl⟩
  refine ⟨G, G, pub, H, mz, n - 7, 1, hG, hG0, rfl, hG.symm, hz, ?_, fun E => ?_⟩
  · have h1 : ((1 : ℤ).toNat • G + (((n : ℤ) - 7 + 1) % n).toNat • G) = (n - 5) • G := by
      rw [← add_smul]
      congr 1
    refine ⟨by decide +kernel, by decide +kernel, by decide +kernel, by decide +kernel,
      by decide +kernel, ?_, ?_⟩
    · rw [h1]
      exact good_sm2.smul_ne_zero hG0 (by decide +kernel) (by decide +kernel)
    · rw [h1, ← Verif.Affine.smul_eq good_sm2.ok _ Curves.sm2_aN, hG]
      decide +kernel
  · rw [← Bool.not_eq_true, verify_combine rfl hz]
    rintro ⟨-, -, -, -, -, h, -⟩
    apply h
    change combinedMult Curves.sm2.Gx Curves.sm2.Gy (bytesOfNat (1 : ℤ).toNat)
      (bytesOfNat (((n : ℤ) - 7 + 1) % n).toNat) = (0, 0)
    decide +kernel

/-! ### C86: SM2 signing on amd64 -/

theorem invOf_amd64 (E : Verif.SM2.Ext) (k : ℕ) :
    (k % n ≠ 0 → k * Verif.SM2.invOf (Verif.SM2.amd64 E) n k % n = 1) ∧
    (k % n = 0 → Verif.SM2.invOf (Verif.SM2.amd64 E) n k % n = 0) := by
  have h1 : 1 % n = 1 := by decide +kernel
  change (k % n ≠ 0 → k * inverse k % n = 1) ∧ (k % n = 0 → inverse k % n = 0)
  refine ⟨fun h => ?_, fun h => ?_⟩
  · have := (C54_inverse k (by rwa [Int.natCast_dvd_natCast, Nat.dvd_iff_mod_eq_zero])).2
    rw [abs_of_nonneg (Int.natCast_nonneg k), mul_comm] at this
    have h2 : k * inverse k ≡ 1 [MOD n] := by exact_mod_cast this
    exact Eq.trans h2 h1
  · rw [C54_inverse_zero k (by rwa [Int.natCast_dvd_natCast, Nat.dvd_iff_mod_eq_zero]), Nat.zero_mod]

/-- C86: what `sm2.Sign` returns on amd64 was made with a nonce `k` below `n - 1`, which private key and
signature determine, and is accepted by the standard's check if the multiplication of the base point by `k` is
exact: for every key that is not zero
modulo the order, hash function, id, message and random input.  Missing: nonces whose multiplication
depends on an inexact operation. -/
theorem C86_sign_amd64_partial (E : Verif.SM2.Ext) (H : Bytes → Bytes) (G : SM2.Point)
    (hG : xy G = (Curves.sm2.Gx, Curves.sm2.Gy)) (priv : ECPriv) (hp : SM2Pair G priv)
    (fuel : ℕ) (rand id msg : Bytes) (r s : ℕ)
    (hs : Verif.SM2.sign (Verif.SM2.amd64 E) H fuel rand priv id msg = some (.ok (r, s))) :
    let k := (s + (r + s) * priv.D) % n
    1 ≤ k ∧ k < n - 1 ∧ 1 ≤ r ∧ r < n ∧ 1 ≤ s ∧ s < n ∧ ∃ mz, Verif.SM2.getZ H msg priv.pub id = .ok mz ∧
      (ExactBase (bytesOfNat k) → SM2.Accepts G (priv.D • G) (natOfBytes (H mz)) r s) := by
  obtain ⟨hcrv, hD, hpub⟩ := hp
  obtain ⟨mz, hz, hc, reads, hl⟩ := Verif.SM2.sign_ok hs
  obtain ⟨b, -, ht⟩ := Verif.SM2.signLoop_spec hl
  rw [hc] at ht
  have hk := Verif.SM2.randFieldElement_range b
  generalize Verif.SM2.randFieldElement Curves.sm2 b = k at *
  obtain ⟨hr, h1, h2, h3, h4, h5, h6⟩ :=
    Verif.SM2.signTry_spec' (invOf_amd64 E _) hk.1 (by omega) ht
  have e1 : (((r : ℤ) + s) % n).toNat = (r + s) % n := by
    rw [← Nat.cast_add, ← Int.natCast_mod, Int.toNat_natCast]
  have hkn : (s + (r + s) * priv.D) % n = k := by
    have h6' : (s + (((r : ℤ) + s) % n).toNat * priv.D) % n = k % n := h6
    have : (s + (r + s) % n * priv.D) % n = (s + (r + s) * priv.D) % n :=
      Nat.ModEq.add_left s ((Nat.mod_modEq (r + s) n).mul_right priv.D)
    rw [← this, ← e1, h6', Nat.mod_eq_of_lt (by omega)]
  intro k'
  have hk' : k' = k := hkn
  rw [hk']
  refine ⟨hk.1, hk.2, h1, h2, h3, h4, mz, hz, fun he => ?_⟩
  have hG0 : G ≠ 0 := good_sm2.G_ne_zero hG
  have hQ : s • G + (((r : ℤ) + s) % (SM2.n : ℕ)).toNat • priv.D • G = k • G := by
    rw [smul_smul, ← add_smul, good_sm2.smul_eq_iff hG0]
    simpa using h6
  refine ⟨by omega, by exact_mod_cast h2, by omega, by exact_mod_cast h4, h5.ne', ?_, ?_⟩
  · rw [Int.toNat_natCast, hQ]; exact good_sm2.smul_ne_zero hG0 hk.1 (by omega)
  · have hb := C83_scalarBaseMult_partial G hG _ he
    rw [Verif.SM2.natOfBytes_bytesOfNat] at hb
    rw [Int.toNat_natCast, hQ, ← hb]
    rw [hr]
    change _ = ((((scalarBaseMult (bytesOfNat k)).1 + natOfBytes (H mz)) % n : ℕ) : ℤ)
    push_cast; rw [add_comm]

/-- C86: and then `sm2.Verify` accepts it on amd64, if the multiplications it does are exact, unless
`r + s = n - 6` modulo the order or `2 s = k` modulo the order. -/
theorem C86_sign_verify_amd64_partial (E E' : Verif.SM2.Ext) (H : Bytes → Bytes) (G : SM2.Point)
    (hG : xy G = (Curves.sm2.Gx, Curves.sm2.Gy)) (priv : ECPriv) (hp : SM2Pair G priv)
    (fuel : ℕ) (rand id msg : Bytes) (r s : ℕ)
    (hs : Verif.SM2.sign (Verif.SM2.amd64 E) H fuel rand priv id msg = some (.ok (r, s)))
    (he : ExactCombined priv.pub.x priv.pub.y (bytesOfNat s) (bytesOfNat ((r + s) % n))) :
    let k := (s + (r + s) * priv.D) % n
    ExactBase (bytesOfNat k) → (r + s) % n ≠ n - 6 → 2 * s % n ≠ k →
      Verif.SM2.verify (Verif.SM2.amd64 E') H priv.pub id msg r s = true := by
  intro k hb h6 h2s
  obtain ⟨-, -, -, -, -, -, mz, hz, hk⟩ := C86_sign_amd64_partial E H G hG priv hp fuel rand id msg r s hs
  have hacc := hk hb
  obtain ⟨hcrv, hD, hpub⟩ := hp
  have hG0 : G ≠ 0 := good_sm2.G_ne_zero hG
  have hkn : (s + (r + s) % n * priv.D) % n = k :=
    Nat.ModEq.add_left s ((Nat.mod_modEq (r + s) n).mul_right priv.D)
  have hQ : s • G + ((r + s) % n) • priv.D • G = k • G := by
    rw [smul_smul, ← add_smul, good_sm2.smul_eq_iff hG0]
    exact hkn.trans (Nat.mod_mod _ _).symm
  have hP : priv.D • G ≠ 0 := by
    rw [Ne, good_sm2.smul_eq_zero_iff hG0]; exact hD
  have e1 : (((r : ℤ) + s) % n).toNat = (r + s) % n := by
    rw [← Nat.cast_add, ← Int.natCast_mod, Int.toNat_natCast]
  rw [C85_verify_amd64_partial E' H G hG _ hP priv.pub hcrv hpub id msg mz hz r s
    (by rw [e1, Int.toNat_natCast]; exact he)]
  refine ⟨hacc, ?_⟩
  rw [e1, Int.toNat_natCast]
  rintro (h | h)
  · apply h6
    have h6 : 6 < Curves.sm2.N := by decide +kernel
    generalize Curves.sm2.N = N at *
    have : (((r + s) % N : ℕ) : ℤ) = N - 6 := by push_cast; exact h
    omega
  · rw [← h, ← add_smul, ← two_mul, good_sm2.smul_eq_iff hG0] at hQ
    apply h2s
    have hQ' : 2 * s % n = k % n := hQ
    rw [hQ']; exact Nat.mod_mod _ _

/-- The SM2 curve on amd64 with a keystream that gives the nonce `1 + 0x123456`, and no other part. -/
def exExt : Verif.SM2.Ext :=
  Verif.SM2.amd64 ⟨⟨fun _ => (0, 0), fun _ _ => (0, 0), fun _ _ => (0, 0)⟩, fun _ _ => false, none, none,
    fun b => b, fun _ _ len => beFix len 0x123456⟩

/-- The key pair with the private key 2. -/
def exPriv : ECPriv := ⟨2, Curves.sm2, twoX, twoY⟩

/-- A hash function with a constant value, such that the signature consists of small numbers. -/
def exHash (_ : Bytes) : Bytes :=
  bytesOfNat 0x880037c414191c691e0668dab7dde69767aab5bc666317a3354c829ceace500d

/-- A case that meets the hypotheses of the two theorems: the multiplications are exact and the exceptions
do not occur. -/
example (G : SM2.Point) (hG : xy G = (Curves.sm2.Gx, Curves.sm2.Gy)) : SM2Pair G exPriv ∧
    Verif.SM2.sign exExt exHash 1 (zeros 16) exPriv [] abc = some (.ok (589535, 4659)) ∧
    ExactCombined exPriv.pub.x exPriv.pub.y (bytesOfNat 4659) (bytesOfNat ((589535 + 4659) % n)) ∧
    (4659 + (589535 + 4659) * exPriv.D) % n = 0x123457 ∧ ExactBase (bytesOfNat 0x123457) ∧
    (589535 + 4659) % n ≠ n - 6 ∧ 2 * 4659 % n ≠ 0x123457 := by
  refine ⟨⟨rfl, by decide +kernel, ?_⟩, by decide +kernel, by decide +kernel, by decide +kernel, by decide +kernel⟩
  rw [← Verif.Affine.smul_eq good_sm2.ok _ Curves.sm2_aN, hG]
  decide +kernel

end Verif.Props
