/-
The curve methods of crypto/elliptic compute in the group of the curve.
-/
import Verif.Model.Generic
import Verif.Lemmas.P256Jac
import Verif.Lemmas.GoodCurve
import Verif.Lemmas.Bytes

namespace Verif.Generic
open Verif.Spec WeierstrassCurve Verif.X64.P256

variable {c : Curve} [hp : Fact c.P.Prime]

theorem cast_fixNeg (v : Int) : ((fixNeg (c.P : Int) v : Int) : ZMod c.P) = v := by
  unfold fixNeg
  split_ifs
  · push_cast; simp
  · rfl

theorem cast_mod (v : Int) : ((v % (c.P : Int) : Int) : ZMod c.P) = v := ZMod.intCast_mod v c.P

theorem P_pos : (0 : Int) < c.P := by exact_mod_cast hp.out.pos

theorem mod_range (v : Int) : 0 ≤ v % (c.P : Int) ∧ v % (c.P : Int) < c.P :=
  ⟨Int.emod_nonneg _ (ne_of_gt P_pos), Int.emod_lt_of_pos _ P_pos⟩

theorem cast_eq_zero {v : Int} (h0 : 0 ≤ v) (h1 : v < c.P) : ((v : Int) : ZMod c.P) = 0 ↔ v = 0 := by
  rw [ZMod.intCast_zmod_eq_zero_iff_dvd]
  constructor
  · intro h; exact Int.eq_zero_of_dvd_of_nonneg_of_lt h0 h1 h
  · rintro rfl; exact dvd_zero _

theorem cast_inj {v w : Int} (hv : 0 ≤ v ∧ v < c.P) (hw : 0 ≤ w ∧ w < c.P) :
    ((v : Int) : ZMod c.P) = w ↔ v = w := by
  constructor
  · intro h
    rw [ZMod.intCast_eq_intCast_iff, Int.ModEq, Int.emod_eq_of_lt hv.1 hv.2, Int.emod_eq_of_lt hw.1 hw.2] at h
    exact h
  · rintro rfl; rfl

/-- The coordinates as field elements. -/
def toF (j : Jac) : X64.P256.Jac (ZMod c.P) := ⟨j.x, j.y, j.z⟩

/-- `j` stands for the point `Q`. -/
def Rep (j : Jac) (Q : Pt c (-3)) : Prop := Reps (toF j) Q ∧ 0 ≤ j.z ∧ j.z < c.P

theorem Rep.z_iff {j : Jac} {Q : Pt c (-3)} (h : Rep j Q) : j.z = 0 ↔ Q = 0 := by
  have h1 := reps_ne h.1
  have h2 := cast_eq_zero (c := c) h.2.1 h.2.2
  rw [← h2]
  exact not_iff_not.1 h1

/-- The tangent case, for points of order other than two. -/
theorem add_tangent' (hok : Verif.Affine.Ok c (-3)) {x y : ZMod c.P} (hy : y ≠ 0)
    (h : (Spec.W c (-3)).Nonsingular x y) {j : X64.P256.Jac (ZMod c.P)}
    (H : ∀ L : ZMod c.P, 3 * x ^ 2 - 3 = 2 * y * L → j.z ≠ 0 ∧
      j.x = (L ^ 2 - x - x) * j.z ^ 2 ∧ j.y = (L * (x - (L ^ 2 - x - x)) - y) * j.z ^ 3) :
    Reps j (Affine.Point.some x y h + .some x y h) := by
  have h2 := Verif.Affine.two_ne_zero' hok
  have hn : y ≠ (Spec.W c (-3)).negY x y := by
    simp only [Affine.negY, Spec.W, zero_mul, sub_zero]
    intro h'
    have : 2 * y = 0 := by linear_combination h'
    exact hy ((mul_eq_zero.1 this).resolve_left h2)
  rw [Affine.Point.add_self_of_Y_ne hn]
  have hne : y - (Spec.W c (-3)).negY x y ≠ 0 := sub_ne_zero.2 hn
  obtain ⟨z, hX, hY⟩ := H ((Spec.W c (-3)).slope x x y y) (by
    rw [Affine.slope_of_Y_ne rfl hn]
    rw [mul_div_assoc', eq_div_iff hne]
    simp only [Affine.negY, Spec.W]
    push_cast
    ring)
  refine ⟨z, ?_, ?_⟩
  · rw [hX]; simp [Affine.addX, Spec.W]
  · rw [hY]; simp [Affine.addY, Affine.negAddY, Affine.negY, Affine.addX, Spec.W]; left; ring

/-- The coordinates that doubling returns, in the field. -/
theorem toF_double (j : Jac) : (toF (doubleJacobian c.P j) : X64.P256.Jac (ZMod c.P)) =
    let x : ZMod c.P := j.x
    let y : ZMod c.P := j.y
    let z : ZMod c.P := j.z
    let α := 3 * ((x - z ^ 2) * (x + z ^ 2))
    ⟨α ^ 2 - 8 * x * y ^ 2, α * (4 * x * y ^ 2 - (α ^ 2 - 8 * x * y ^ 2)) - 8 * y ^ 4, 2 * y * z⟩ := by
  simp only [toF, doubleJacobian, cast_fixNeg, cast_mod, Int.cast_mul, Int.cast_sub, Int.cast_add,
    X64.P256.Jac.mk.injEq]
  refine ⟨?_, ?_, ?_⟩
  · push_cast; ring
  · push_cast; ring
  · ring

theorem double_z_range (j : Jac) : 0 ≤ (doubleJacobian c.P j).z ∧ (doubleJacobian c.P j).z < c.P :=
  mod_range _

theorem Rep.double (hok : Verif.Affine.Ok c (-3)) {j : Jac} {Q : Pt c (-3)} (h : Rep j Q) :
    Rep (doubleJacobian c.P j) (Q + Q) := by
  refine ⟨?_, double_z_range j⟩
  rw [toF_double]
  cases Q with
  | zero =>
    have hz : ((j.z : Int) : ZMod c.P) = 0 := h.1
    change Reps _ ((0 : Pt c (-3)) + 0)
    rw [add_zero, reps_zero]
    simp [hz]
  | some x y hn =>
    obtain ⟨hz, hx, hy⟩ := h.1
    simp only [toF] at hz hx hy
    by_cases hy0 : y = 0
    · have : (Affine.Point.some x y hn : Pt c (-3)) + .some x y hn = 0 :=
        Affine.Point.add_of_Y_eq rfl (by simp [Affine.negY, Spec.W, hy0])
      rw [this, reps_zero]
      simp [hy, hy0]
    · refine add_tangent' hok hy0 hn fun L hL => ?_
      have h2 := Verif.Affine.two_ne_zero' hok
      have hα : 3 * (((j.x : Int) - (j.z : Int) ^ 2 : ZMod c.P) * ((j.x : Int) + (j.z : Int) ^ 2)) =
          2 * y * L * ((j.z : Int) : ZMod c.P) ^ 4 := by
        rw [hx, ← hL]; ring
      simp only [hα]
      refine ⟨?_, ?_, ?_⟩
      · rw [hy]
        exact mul_ne_zero (mul_ne_zero h2 (mul_ne_zero hy0 (pow_ne_zero _ hz))) hz
      · rw [hx, hy]; ring
      · rw [hx, hy]; ring

theorem fixNeg_eq_zero {v w : Int} (hv : 0 ≤ v ∧ v < c.P) (hw : 0 ≤ w ∧ w < c.P) :
    fixNeg (c.P : Int) (v - w) = 0 ↔ v = w := by
  unfold fixNeg
  split_ifs <;> omega

theorem add_z_range {a b : Jac} (ha : 0 ≤ a.z ∧ a.z < c.P) (hb : 0 ≤ b.z ∧ b.z < c.P) :
    0 ≤ (addJacobian c.P a b).z ∧ (addJacobian c.P a b).z < c.P := by
  unfold addJacobian
  dsimp only
  split_ifs
  · exact hb
  · exact ha
  · exact double_z_range a
  · exact mod_range _

/-- Addition of two points other than infinity: which case is taken and what it returns. -/
theorem toF_add {a b : Jac} (ha : a.z ≠ 0) (hb : b.z ≠ 0) :
    let u1 : ZMod c.P := a.x * (b.z : ZMod c.P) ^ 2
    let u2 : ZMod c.P := b.x * (a.z : ZMod c.P) ^ 2
    let s1 : ZMod c.P := a.y * (b.z : ZMod c.P) ^ 3
    let s2 : ZMod c.P := b.y * (a.z : ZMod c.P) ^ 3
    (u1 = u2 ∧ s1 = s2 ∧ addJacobian c.P a b = doubleJacobian c.P a) ∨
    (¬ (u1 = u2 ∧ s1 = s2) ∧ (toF (addJacobian c.P a b) : X64.P256.Jac (ZMod c.P)) =
      let h := u2 - u1
      let r := 2 * (s2 - s1)
      let x3 := r ^ 2 - 4 * h ^ 3 - 8 * u1 * h ^ 2
      ⟨x3, r * (4 * u1 * h ^ 2 - x3) - 8 * s1 * h ^ 3, 2 * a.z * b.z * h⟩) := by
  intro u1 u2 s1 s2
  have hu : (b.x * (a.z * a.z % c.P) % c.P - a.x * (b.z * b.z % c.P) % c.P = 0) ↔ u1 = u2 := by
    rw [sub_eq_zero, ← cast_inj (mod_range _) (mod_range _)]
    simp only [cast_mod, Int.cast_mul, u1, u2]
    constructor <;> intro h <;> linear_combination -h
  have hs : fixNeg c.P (b.y * a.z * (a.z * a.z % c.P) % c.P - a.y * b.z * (b.z * b.z % c.P) % c.P) = 0 ↔
      s1 = s2 := by
    rw [fixNeg_eq_zero (mod_range _) (mod_range _), ← cast_inj (mod_range _) (mod_range _)]
    simp only [cast_mod, Int.cast_mul, s1, s2]
    constructor <;> intro h <;> linear_combination -h
  by_cases hc : u1 = u2 ∧ s1 = s2
  · left
    refine ⟨hc.1, hc.2, ?_⟩
    unfold addJacobian
    rw [if_neg ha, if_neg hb]
    dsimp only
    rw [if_pos ⟨hu.2 hc.1, hs.2 hc.2⟩]
  · right
    refine ⟨hc, ?_⟩
    unfold addJacobian
    rw [if_neg ha, if_neg hb]
    dsimp only
    rw [if_neg (fun h => hc ⟨hu.1 h.1, hs.1 h.2⟩)]
    simp only [toF, cast_fixNeg, cast_mod, Int.cast_mul, Int.cast_sub, Int.cast_add, X64.P256.Jac.mk.injEq,
      u1, u2, s1, s2]
    refine ⟨?_, ?_, ?_⟩
    · push_cast; ring
    · push_cast; ring
    · ring

theorem Rep.add (hok : Verif.Affine.Ok c (-3)) {a b : Jac} {P Q : Pt c (-3)} (ha : Rep a P) (hb : Rep b Q) :
    Rep (addJacobian c.P a b) (P + Q) := by
  by_cases hP : P = 0
  · have hz := ha.z_iff.2 hP
    have : addJacobian c.P a b = b := by unfold addJacobian; rw [if_pos hz]
    rw [this, hP, zero_add]; exact hb
  by_cases hQ : Q = 0
  · have hz := hb.z_iff.2 hQ
    have : addJacobian c.P a b = a := by
      unfold addJacobian; rw [if_neg (fun h => hP (ha.z_iff.1 h)), if_pos hz]
    rw [this, hQ, add_zero]; exact ha
  have haz : a.z ≠ 0 := fun h => hP (ha.z_iff.1 h)
  have hbz : b.z ≠ 0 := fun h => hQ (hb.z_iff.1 h)
  cases P with
  | zero => exact absurd rfl hP
  | some x₁ y₁ h₁ =>
  cases Q with
  | zero => exact absurd rfl hQ
  | some x₂ y₂ h₂ =>
    obtain ⟨z1, xa, ya⟩ := ha.1
    obtain ⟨z2, xb, yb⟩ := hb.1
    simp only [toF] at z1 xa ya z2 xb yb
    have hu : ((a.x : Int) : ZMod c.P) * ((b.z : Int) : ZMod c.P) ^ 2 =
        ((b.x : Int) : ZMod c.P) * ((a.z : Int) : ZMod c.P) ^ 2 ↔ x₁ = x₂ := by
      rw [xa, xb]
      constructor
      · intro h
        have : ((a.z : Int) * (b.z : Int) : ZMod c.P) ^ 2 * (x₁ - x₂) = 0 := by linear_combination h
        exact sub_eq_zero.1 ((mul_eq_zero.1 this).resolve_left (pow_ne_zero _ (mul_ne_zero z1 z2)))
      · rintro rfl; ring
    have hs : ((a.y : Int) : ZMod c.P) * ((b.z : Int) : ZMod c.P) ^ 3 =
        ((b.y : Int) : ZMod c.P) * ((a.z : Int) : ZMod c.P) ^ 3 ↔ y₁ = y₂ := by
      rw [ya, yb]
      constructor
      · intro h
        have : ((a.z : Int) * (b.z : Int) : ZMod c.P) ^ 3 * (y₁ - y₂) = 0 := by linear_combination h
        exact sub_eq_zero.1 ((mul_eq_zero.1 this).resolve_left (pow_ne_zero _ (mul_ne_zero z1 z2)))
      · rintro rfl; ring
    rcases toF_add (c := c) haz hbz with ⟨e1, e2, he⟩ | ⟨hne, he⟩
    · have hx := hu.1 e1
      have hy := hs.1 e2
      subst hx hy
      rw [he]
      exact ha.double hok
    · refine ⟨?_, add_z_range ha.2 hb.2⟩
      rw [he]
      by_cases hx : x₁ = x₂
      · subst hx
        rw [same_x h₁ h₂ (by
          intro h
          simp only [Affine.Point.some.injEq, true_and] at h
          exact hne ⟨hu.2 rfl, hs.2 h⟩), reps_zero]
        simp only [hu.2 rfl, sub_self, mul_zero]
      · refine add_chord h₁ h₂ hx fun L hL => ?_
        have h2 := Verif.Affine.two_ne_zero' hok
        have hd : x₂ - x₁ ≠ 0 := sub_ne_zero.2 (Ne.symm hx)
        refine ⟨?_, ?_, ?_⟩
        · simp only [xa, xb]
          have : 2 * ((a.z : Int) : ZMod c.P) * ((b.z : Int) : ZMod c.P) *
              (x₂ * ((b.z : Int) : ZMod c.P) ^ 2 * ((a.z : Int) : ZMod c.P) ^ 2 -
                x₁ * ((a.z : Int) : ZMod c.P) ^ 2 * ((b.z : Int) : ZMod c.P) ^ 2) =
              2 * (((a.z : Int) : ZMod c.P) * ((b.z : Int) : ZMod c.P)) ^ 3 * (x₂ - x₁) := by ring
          rw [this]
          exact mul_ne_zero (mul_ne_zero h2 (pow_ne_zero _ (mul_ne_zero z1 z2))) hd
        · simp only [xa, xb, ya, yb, hL]; ring
        · simp only [xa, xb, ya, yb, hL]; ring

theorem modInverse_spec {z : Int} (h0 : 0 ≤ z) (h1 : z < c.P) (hz : z ≠ 0) :
    ((modInverse z c.P : Int) : ZMod c.P) = ((z : Int) : ZMod c.P)⁻¹ := by
  obtain ⟨n, rfl⟩ := Int.eq_ofNat_of_zero_le h0
  have hn : n < c.P := by exact_mod_cast h1
  have hn0 : n ≠ 0 := by rintro rfl; exact hz rfl
  have hg : Nat.gcd n c.P = 1 := by
    rw [Nat.gcd_comm]
    exact (Nat.Prime.coprime_iff_not_dvd hp.out).2 fun h => absurd (Nat.le_of_dvd (by omega) h) (by omega)
  have hb := Nat.gcd_eq_gcd_ab n c.P
  rw [hg] at hb
  unfold modInverse
  rw [cast_mod]
  simp only [Int.toNat_natCast]
  have hz' : ((n : Int) : ZMod c.P) ≠ 0 := fun h => hz ((cast_eq_zero h0 h1).1 h)
  refine eq_inv_of_mul_eq_one_left ?_
  have := congrArg (fun i : Int => (i : ZMod c.P)) hb
  simp only [Int.cast_add, Int.cast_mul, Int.cast_natCast, ZMod.natCast_self, zero_mul, add_zero,
    Int.cast_one, Nat.cast_one] at this
  simp only [Int.cast_natCast]
  rw [mul_comm]
  exact this.symm

theorem toNat_mod (v : Int) : (v % (c.P : Int)).toNat = ((v : Int) : ZMod c.P).val := by
  have := ZMod.val_intCast (n := c.P) v
  omega

theorem Rep.affine {j : Jac} {Q : Pt c (-3)} (h : Rep j Q) :
    affineFromJacobian c.P j = (((xy Q).1 : Int), ((xy Q).2 : Int)) := by
  by_cases hz : j.z = 0
  · rw [h.z_iff.1 hz]
    unfold affineFromJacobian
    rw [if_pos hz]; rfl
  · cases Q with
    | zero => exact absurd (h.z_iff.2 rfl) hz
    | some x y hn =>
      obtain ⟨z1, xa, ya⟩ := h.1
      simp only [toF] at z1 xa ya
      have hi := modInverse_spec (c := c) h.2.1 h.2.2 hz
      unfold affineFromJacobian
      rw [if_neg hz]
      dsimp only
      rw [Verif.Affine.xy_some]
      have e : ∀ (v : Int) (w : ZMod c.P), ((v : Int) : ZMod c.P) = w → v % (c.P : Int) = (w.val : Int) := by
        rintro v w rfl
        exact (ZMod.val_intCast v).symm
      refine Prod.ext ?_ ?_
      · refine e _ _ ?_
        push_cast
        rw [hi, xa]; field_simp
      · refine e _ _ ?_
        push_cast
        rw [hi, ya]; field_simp

/-- The bits of the loop, the highest first. -/
def bitsVal (bs : List Bool) : Nat := bs.foldl (fun n b => 2 * n + b.toNat) 0

theorem foldl_bits (bs : List Bool) (n : Nat) :
    bs.foldl (fun n b => 2 * n + b.toNat) n = n * 2 ^ bs.length + bitsVal bs := by
  induction bs generalizing n with
  | nil => simp [bitsVal]
  | cons b bs ih =>
    simp only [List.foldl_cons, List.length_cons, bitsVal]
    rw [ih, ih (2 * 0 + b.toNat)]
    ring

theorem Rep.bits (hok : Verif.Affine.Ok c (-3)) {b : Jac} {Q : Pt c (-3)} (hb : Rep b Q) (bs : List Bool) (n : Nat)
    {acc : Jac} (ha : Rep acc (n • Q)) :
    Rep (bs.foldl (bitStep c.P b) acc) ((bs.foldl (fun n b => 2 * n + b.toNat) n) • Q) := by
  induction bs generalizing n acc with
  | nil => exact ha
  | cons t bs ih =>
    simp only [List.foldl_cons]
    refine ih _ ?_
    unfold bitStep
    have hd := ha.double hok
    cases t with
    | false =>
      simp only [Bool.toNat_false, add_zero, Bool.false_eq_true, if_false]
      have e : (2 * n) • Q = n • Q + n • Q := by rw [two_mul, add_smul]
      rw [e]
      exact hd
    | true =>
      simp only [Bool.toNat_true, if_true]
      have := hb.add hok hd
      have e : (2 * n + 1) • Q = Q + (n • Q + n • Q) := by
        rw [add_smul, one_smul, two_mul, add_smul, add_comm]
      rw [e]
      exact this

theorem byte_bits (x : Byte) : bitsVal ((List.range 8).map fun i => x.getMsbD i) = x.toNat := by
  revert x; decide +kernel

theorem Rep.bytes (hok : Verif.Affine.Ok c (-3)) {b : Jac} {Q : Pt c (-3)} (hb : Rep b Q) (k : Bytes) :
    Rep (k.foldl (byteStep c.P b) ⟨0, 0, 0⟩) (natOfBytes k • Q) := by
  induction k using List.reverseRecOn with
  | nil =>
    refine ⟨?_, le_refl _, P_pos⟩
    rw [natOfBytes_nil, zero_smul]
    show Reps _ (0 : Pt c (-3))
    rw [reps_zero]; simp [toF]
  | append_singleton k x ih =>
    rw [List.foldl_append, natOfBytes_append_single]
    simp only [List.foldl_cons, List.foldl_nil]
    have := Rep.bits hok hb ((List.range 8).map fun i => x.getMsbD i) _ ih
    rw [foldl_bits, byte_bits, List.length_map, List.length_range] at this
    exact this

/-- The coordinates of the point at infinity stay `(0, 0)`. -/
theorem zero_mult (k : Bytes) : scalarMult c (0, 0) k = (0, 0) := by
  have hb : ∀ (acc : Jac) (t : Bool), acc.z = 0 ∨ acc = ⟨0, 0, 1⟩ →
      (bitStep c.P ⟨0, 0, 1⟩ acc t).z = 0 ∨ bitStep c.P ⟨0, 0, 1⟩ acc t = ⟨0, 0, 1⟩ := by
    intro acc t h
    have hd : (doubleJacobian c.P acc).z = 0 := by
      refine (cast_eq_zero (double_z_range acc).1 (double_z_range acc).2).1 ?_
      have := congrArg X64.P256.Jac.z (toF_double (c := c) acc)
      simp only [toF] at this
      rw [this]
      rcases h with h | h
      · simp [h]
      · simp [h]
    unfold bitStep
    cases t with
    | false => left; simpa using hd
    | true =>
      right
      simp only [if_true]
      unfold addJacobian
      rw [if_neg (by simp), if_pos hd]
  have hbs : ∀ (bs : List Bool) (acc : Jac), acc.z = 0 ∨ acc = ⟨0, 0, 1⟩ →
      (bs.foldl (bitStep c.P ⟨0, 0, 1⟩) acc).z = 0 ∨ bs.foldl (bitStep c.P ⟨0, 0, 1⟩) acc = ⟨0, 0, 1⟩ := by
    intro bs
    induction bs with
    | nil => intro acc h; exact h
    | cons t bs ih => intro acc h; exact ih _ (hb acc t h)
  have hk : ∀ (k : Bytes) (acc : Jac), acc.z = 0 ∨ acc = ⟨0, 0, 1⟩ →
      (k.foldl (byteStep c.P ⟨0, 0, 1⟩) acc).z = 0 ∨ k.foldl (byteStep c.P ⟨0, 0, 1⟩) acc = ⟨0, 0, 1⟩ := by
    intro k
    induction k with
    | nil => intro acc h; exact h
    | cons x k ih => intro acc h; exact ih _ (hbs _ acc h)
  unfold scalarMult
  rcases hk k ⟨0, 0, 0⟩ (Or.inl rfl) with h | h
  · unfold affineFromJacobian; rw [if_pos h]
  · dsimp only; rw [h]; unfold affineFromJacobian; simp

/-- Coordinates of a point, reduced or not, as Jacobian coordinates. -/
theorem rep_of {x y : Int} {Q : Pt c (-3)} (hQ : Q ≠ 0) (hx : x % c.P = ((xy Q).1 : Int))
    (hy : y % c.P = ((xy Q).2 : Int)) : Rep ⟨x, y, 1⟩ Q := by
  have h1 : (1 : Int) < c.P := by exact_mod_cast hp.out.one_lt
  refine ⟨?_, by norm_num, h1⟩
  cases Q with
  | zero => exact absurd rfl hQ
  | some x' y' hn =>
    rw [Verif.Affine.xy_some] at hx hy
    refine ⟨?_, ?_, ?_⟩
    · simp [toF]
    · have := congrArg (fun i : Int => (i : ZMod c.P)) hx
      simp only [cast_mod, Int.cast_natCast, ZMod.natCast_val, ZMod.cast_id', id_eq] at this
      simp [toF, this]
    · have := congrArg (fun i : Int => (i : ZMod c.P)) hy
      simp only [cast_mod, Int.cast_natCast, ZMod.natCast_val, ZMod.cast_id', id_eq] at this
      simp [toF, this]

theorem scalarMult_eq (hok : Verif.Affine.Ok c (-3)) {x y : Int} {Q : Pt c (-3)} (hQ : Q ≠ 0)
    (hx : x % c.P = ((xy Q).1 : Int)) (hy : y % c.P = ((xy Q).2 : Int)) (k : Bytes) :
    scalarMult c (x, y) k = (((xy (natOfBytes k • Q)).1 : Int), ((xy (natOfBytes k • Q)).2 : Int)) :=
  (Rep.bytes hok (rep_of hQ hx hy) k).affine

theorem xy_lt (Q : Pt c (-3)) : (xy Q).1 < c.P ∧ (xy Q).2 < c.P := by
  cases Q with
  | zero => exact ⟨hp.out.pos, hp.out.pos⟩
  | some x y hn => exact ⟨ZMod.val_lt x, ZMod.val_lt y⟩

theorem scalarMult_xy (hok : Verif.Affine.Ok c (-3)) (Q : Pt c (-3)) (k : Bytes) :
    scalarMult c ((xy Q).1, (xy Q).2) k = (((xy (natOfBytes k • Q)).1 : Int), ((xy (natOfBytes k • Q)).2 : Int)) := by
  by_cases hQ : Q = 0
  · subst hQ
    rw [smul_zero]
    exact zero_mult k
  · have h := xy_lt Q
    exact scalarMult_eq hok hQ (Int.emod_eq_of_lt (by omega) (by omega)) (Int.emod_eq_of_lt (by omega) (by omega)) k

theorem rep_zForAffine (hok : Verif.Affine.Ok c (-3)) (Q : Pt c (-3)) :
    Rep ⟨(xy Q).1, (xy Q).2, zForAffine (xy Q).1 (xy Q).2⟩ Q := by
  by_cases hQ : Q = 0
  · subst hQ
    refine ⟨?_, ?_, ?_⟩
    · rw [reps_zero]; simp [toF, zForAffine, Verif.Affine.xy_zero]
    · simp [zForAffine, Verif.Affine.xy_zero]
    · simpa [zForAffine, Verif.Affine.xy_zero] using P_pos (c := c)
  · have h := xy_lt Q
    have hz : zForAffine (xy Q).1 (xy Q).2 = 1 := by
      unfold zForAffine
      rw [if_pos]
      by_contra hcon
      push Not at hcon
      exact hQ ((Verif.Affine.xy_eq_zero_iff hok Q).1 (Prod.ext (by exact_mod_cast hcon.1) (by exact_mod_cast hcon.2)))
    rw [hz]
    exact rep_of hQ (Int.emod_eq_of_lt (by omega) (by omega)) (Int.emod_eq_of_lt (by omega) (by omega))

theorem add_xy (hok : Verif.Affine.Ok c (-3)) (P Q : Pt c (-3)) :
    add c ((xy P).1, (xy P).2) ((xy Q).1, (xy Q).2) = (((xy (P + Q)).1 : Int), ((xy (P + Q)).2 : Int)) :=
  ((rep_zForAffine hok P).add hok (rep_zForAffine hok Q)).affine

theorem double_xy (hok : Verif.Affine.Ok c (-3)) (P : Pt c (-3)) :
    double c ((xy P).1, (xy P).2) = (((xy (P + P)).1 : Int), ((xy (P + P)).2 : Int)) :=
  ((rep_zForAffine hok P).double hok).affine

omit hp in
theorem onCurve_iff (x y : Nat) : equation c x y = true ↔ OnCurve c (-3) x y := by
  unfold equation OnCurve
  dsimp only
  rw [decide_eq_true_iff, eq_comm, Int.emod_eq_emod_iff_emod_sub_eq_zero]
  have : ((y : Int) * y - (x * x * x - (x * 2 + x) + c.B)) = (y : Int) ^ 2 - ((x : Int) ^ 3 + -3 * x + c.B) := by ring
  rw [this]

end Verif.Generic
