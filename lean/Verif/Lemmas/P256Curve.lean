/-
The methods of the amd64 curve compute in the group of the curve, when the arithmetic is exact.
-/
import Verif.Lemmas.P256Base
import Verif.Lemmas.P256Rel

namespace Verif.X64.P256

open Verif.Spec WeierstrassCurve

section
variable {c : Curve} [Fact c.P.Prime]

/-- The affine coordinates of a representation. -/
theorem toAffine_reps (hi : ∀ z : ZMod c.P, invP z = z⁻¹) {j : Jac (ZMod c.P)} {Q : Pt c (-3)}
    (h : Reps j Q) : ((toAffine j).1.val, (toAffine j).2.val) = xy Q := by
  rw [toAffine_of_inv hi]
  cases Q with
  | zero =>
    have hz : j.z = 0 := h
    change ((j.x * j.z⁻¹ ^ 2).val, (j.y * j.z⁻¹ ^ 3).val) = (0, 0)
    rw [hz, inv_zero, zero_pow (by decide), zero_pow (by decide), mul_zero, mul_zero, ZMod.val_zero]
  | some x y hn =>
    obtain ⟨hz, hx, hy⟩ := h
    rw [Verif.Affine.xy_some]
    dsimp only
    rw [show j.x * j.z⁻¹ ^ 2 = x by rw [hx]; field_simp,
      show j.y * j.z⁻¹ ^ 3 = y by rw [hy]; field_simp]

/-- What the formulas make of (0, 0): either z = 0 or x = y = 0. -/
def Deg (j : Jac (ZMod c.P)) : Prop := j.z = 0 ∨ (j.x = 0 ∧ j.y = 0)

theorem deg_double {j : Jac (ZMod c.P)} (h : Deg j) : Deg (pointDouble j) := by
  left
  unfold pointDouble
  simp only [f_mul, f_dbl]
  rcases h with h | h
  · rw [h]; ring
  · rw [h.2]; ring

theorem deg_add {a b : Jac (ZMod c.P)} (ha : Deg a) (hb : Deg b) : Deg (pointAdd a b) := by
  left
  change mul (mul a.z b.z) (sub (mul (sq a.z) b.x) (mul (sq b.z) a.x)) = 0
  simp only [f_mul, f_sub]
  rcases ha with ha | ha
  · rw [ha]; ring
  · rcases hb with hb | hb
    · rw [hb]; ring
    · rw [ha.1, hb.1]; ring

theorem deg_toAffine (hi : ∀ z : ZMod c.P, invP z = z⁻¹) {j : Jac (ZMod c.P)} (h : Deg j) :
    toAffine j = (0, 0) := by
  rw [toAffine_of_inv hi]
  rcases h with h | h
  · rw [h, inv_zero, zero_pow (by decide), zero_pow (by decide), mul_zero, mul_zero]
  · rw [h.1, h.2, zero_mul, zero_mul]

theorem deg_select {l : List (Jac (ZMod c.P))} (h : ∀ a ∈ l, Deg a) (idx : W) :
    Deg (selectVal l idx) := by
  have hz : Deg (⟨Ops.zero, Ops.zero, Ops.zero⟩ : Jac (ZMod c.P)) := Or.inl rfl
  unfold selectVal
  split
  · rw [List.getD_eq_getElem?_getD]
    rcases hg : l[idx.toNat % 2 ^ 32 - 1]? with _ | a
    · exact hz
    · exact h a (List.mem_of_getElem? hg)
  · exact hz

theorem deg_precomp {a : Jac (ZMod c.P)} (h : Deg a) : ∀ b ∈ precomp a, Deg b := by
  have e2 := deg_double h
  have e4 := deg_double e2
  have e8 := deg_double e4
  have e16 := deg_double e8
  have e3 := deg_add e2 h
  have e5 := deg_add e4 h
  have e9 := deg_add e8 h
  have e6 := deg_double e3
  have e10 := deg_double e5
  have e7 := deg_add e6 h
  have e11 := deg_add e10 h
  have e12 := deg_double e6
  have e14 := deg_double e7
  have e13 := deg_add e12 h
  have e15 := deg_add e14 h
  unfold precomp
  simp only [List.forall_mem_cons, List.not_mem_nil, false_imp_iff, implies_true, and_true]
  exact ⟨h, e2, e3, e4, e5, e6, e7, e8, e9, e10, e11, e12, e13, e14, e15, e16⟩

theorem deg_mov {a b : Jac (ZMod c.P)} (ha : Deg a) (hb : Deg b) (w : W) : Deg (movVal a b w) := by
  unfold movVal
  split
  · exact hb
  · exact ha

theorem deg_step {l : List (Jac (ZMod c.P))} (h : ∀ a ∈ l, Deg a) {st : Jac (ZMod c.P) × W}
    (hs : Deg st.1) (w : W) : Deg (multStep l st w).1 := by
  have hp := deg_double (deg_double (deg_double (deg_double (deg_double hs))))
  have ht : Deg (⟨(selectVal l (boothW5 w).1).x,
      negVal (selectVal l (boothW5 w).1).y (boothW5 w).2, (selectVal l (boothW5 w).1).z⟩ :
      Jac (ZMod c.P)) := by
    rcases deg_select h (boothW5 w).1 with h | h
    · exact Or.inl h
    · refine Or.inr ⟨h.1, ?_⟩
      change negVal _ _ = 0
      unfold negVal
      rw [h.2, f_neg, neg_zero, ite_self]
  exact deg_mov (deg_mov (deg_add hp ht) hp _) ht _

theorem deg_pointMult {a : Jac (ZMod c.P)} (h : Deg a) (k : ℕ) : Deg (pointMult a k) := by
  have hl := deg_precomp h
  refine deg_step hl ?_ _
  unfold multScan
  dsimp only
  generalize List.range 50 = L
  have : ∀ (L : List ℕ) (st : Jac (ZMod c.P) × W), Deg st.1 →
      Deg (L.foldl (fun st i => multStep (precomp a) st (window k (249 - 5 * i) 0x3f)) st).1 := by
    intro L
    induction L with
    | nil => exact fun st h => h
    | cons i L ih => exact fun st h => ih _ (deg_step hl h _)
  exact this L _ (deg_select hl _)

end

open Verif.Curves Verif.Spec.P256

theorem amd64_sm2 : Amd64Curve sm2 where
  toGoodCurve := good_sm2
  root := by
    intro x hx
    apply sm2_no_root x
    have := sm2_aN
    rw [← hx]
    congr 3
  n_gt := by decide +kernel
  n_gt' := by decide +kernel
  n_lt := by decide +kernel
  n_mod := by decide +kernel

theorem fromMontP_val {v : ℕ} {x : K} (hv : v < 2 ^ 256) (e : ((v : ℕ) : K) = x * 2 ^ 256) :
    fromMontP v = x.val := by
  have h1 : fromMontP v < sm2.P :=
    redc_lt (hv.trans_le (Nat.le_mul_of_pos_left _ (by decide +kernel)))
  have h2 : fromMontP v * 2 ^ 256 ≡ v [MOD sm2.P] := redc_modEq Pk_spec
  have h3 : ((fromMontP v : ℕ) : K) * 2 ^ 256 = x * 2 ^ 256 := by
    rw [← e]
    have := (ZMod.natCast_eq_natCast_iff _ _ _).2 h2
    exact_mod_cast this
  have h4 := mul_right_cancel₀ R_ne h3
  rw [← h4, ZMod.val_natCast_of_lt h1]

theorem some_mul : MulRel (fun (o _ _ : Option ℕ) => o.isSome = true) where
  mul := by
    intro a _ _ b _ _ ha hb
    cases a with
    | none => cases ha
    | some a => cases b with
      | none => cases hb
      | some b => rfl

theorem known_toAffine {j : Jac (Option ℕ)} (h : Known j) :
    (toAffine j).1.isSome = true ∧ (toAffine j).2.isSome = true :=
  JRel.toAffine (R := fun (o _ _ : Option ℕ) => o.isSome = true) (a := j) (a' := j) (a'' := j)
    some_mul ⟨h.1, h.2.1, h.2.2⟩

theorem pointToAffine_rel {o : Jac (Option ℕ)} {v : Jac ℕ} {j : Jac K} (h : JRel Rel o v j)
    (hk : Known o) : pointToAffine v = ((toAffine j).1.val, (toAffine j).2.val) := by
  obtain ⟨h1, h2⟩ := h.toAffine rel_ops.toMulRel
  obtain ⟨k1, k2⟩ := known_toAffine hk
  obtain ⟨w1, e1⟩ := Option.isSome_iff_exists.1 k1
  obtain ⟨w2, e2⟩ := Option.isSome_iff_exists.1 k2
  unfold pointToAffine
  dsimp only
  rw [fromMontP_val h1.lt (h1.ok w1 e1).2, fromMontP_val h2.lt (h2.ok w2 e2).2]

theorem rr_cast : ((rr : ℕ) : K) = 2 ^ 256 * 2 ^ 256 := by
  have h : rr ≡ 2 ^ 256 * 2 ^ 256 [MOD sm2.P] := by decide +kernel
  have := (ZMod.natCast_eq_natCast_iff _ _ _).2 h
  exact_mod_cast this

theorem reduceModP_eq (x : ℕ) : reduceModP x = x % P := by
  unfold reduceModP
  split
  · rw [Nat.mod_eq_of_lt (by assumption)]
  · rfl

theorem rel_toMont (x : ℕ) : Rel (some (mulP (reduceModP x) rr)) (mulP (reduceModP x) rr) (x : K) := by
  have hP : P < 2 ^ 256 := by decide +kernel
  have h0 : 0 < P := by decide +kernel
  have hx : reduceModP x < 2 ^ 256 := by
    rw [reduceModP_eq]; exact (Nat.mod_lt _ h0).trans hP
  refine Rel.of (mulP_lt hx (by decide +kernel)) (mul_right_cancel₀ R_ne ?_)
  rw [mulP_cast, rr_cast, reduceModP_eq]
  rw [show ((x % P : ℕ) : K) = (x : K) from ZMod.natCast_mod x sm2.P]
  ring

theorem rel_fromXY (x y : ℕ) :
    JRel Rel (known (fromXY x y)) (fromXY x y) (⟨(x : K), (y : K), 1⟩ : Jac K) :=
  ⟨rel_toMont x, rel_toMont y, Rel.one⟩

theorem rel_basePoint :
    JRel Rel (known basePoint) basePoint (⟨(sm2.Gx : K), (sm2.Gy : K), 1⟩ : Jac K) := by
  refine ⟨Rel.of (by decide +kernel) ?_, Rel.of (by decide +kernel) ?_, Rel.one⟩
  · have h : basePoint.x ≡ sm2.Gx * 2 ^ 256 [MOD sm2.P] := by decide +kernel
    have := (ZMod.natCast_eq_natCast_iff _ _ _).2 h
    exact_mod_cast this
  · have h : basePoint.y ≡ sm2.Gy * 2 ^ 256 [MOD sm2.P] := by decide +kernel
    have := (ZMod.natCast_eq_natCast_iff _ _ _).2 h
    exact_mod_cast this

theorem getScalar_eq (scalar : Bytes) : getScalar scalar = natOfBytes scalar % N := by
  unfold getScalar
  dsimp only
  split
  · rfl
  · rw [Nat.mod_eq_of_lt (by omega)]

theorem getScalar_lt (scalar : Bytes) : getScalar scalar < sm2.N := by
  rw [getScalar_eq]
  exact Nat.mod_lt _ (by decide +kernel)

theorem getScalar_smul (scalar : Bytes) (P : Pt sm2 (-3)) :
    getScalar scalar • P = natOfBytes scalar • P := by
  rw [getScalar_eq]
  exact Verif.Affine.mod_smul good_sm2.card P _

theorem reps_fromXY {x y : ℕ} {P : Pt sm2 (-3)} (hP : P ≠ 0)
    (h : xy P = (x % sm2.P, y % sm2.P)) : Reps (⟨(x : K), (y : K), 1⟩ : Jac K) P := by
  cases P with
  | zero => exact absurd rfl hP
  | some a b hn =>
    rw [Verif.Affine.xy_some, Prod.mk.injEq] at h
    have e1 : (x : K) = a := by
      rw [← ZMod.natCast_mod, ← h.1, ZMod.natCast_zmod_val]
    have e2 : (y : K) = b := by
      rw [← ZMod.natCast_mod, ← h.2, ZMod.natCast_zmod_val]
    refine ⟨one_ne_zero, ?_, ?_⟩
    · change (x : K) = a * 1 ^ 2
      rw [e1]; ring
    · change (y : K) = b * 1 ^ 3
      rw [e2]; ring

theorem deg_fromXY {x y : ℕ} (h : ((0, 0) : ℕ × ℕ) = (x % sm2.P, y % sm2.P)) :
    Deg (⟨(x : K), (y : K), 1⟩ : Jac K) := by
  rw [Prod.mk.injEq] at h
  refine Or.inr ⟨?_, ?_⟩
  · change (x : K) = 0
    rw [← ZMod.natCast_mod, ← h.1, Nat.cast_zero]
  · change (y : K) = 0
    rw [← ZMod.natCast_mod, ← h.2, Nat.cast_zero]

/-- ScalarMult, for every point and scalar with an exact run. -/
theorem scalarMult_xy {x y : ℕ} {scalar : Bytes} {P : Pt sm2 (-3)}
    (h : xy P = (x % sm2.P, y % sm2.P)) (he : ExactMult x y scalar) :
    scalarMult x y scalar =
      if natOfBytes scalar % sm2.N = sm2.N - 6 then (0, 0) else xy (natOfBytes scalar • P) := by
  unfold scalarMult
  rw [pointToAffine_rel (JRel.pointMult rel_ops (rel_fromXY x y) (getScalar scalar)) he,
    ← getScalar_smul]
  have hg : natOfBytes scalar % sm2.N = getScalar scalar := (getScalar_eq scalar).symm
  rw [hg]
  have hlt := getScalar_lt scalar
  generalize getScalar scalar = k at *
  by_cases hP : P = 0
  · subst hP
    rw [deg_toAffine invP_inv (deg_pointMult (deg_fromXY h) k), smul_zero, ZMod.val_zero]
    exact (ite_self _).symm
  · have hr := reps_fromXY hP h
    split
    · rename_i hk
      subst hk
      rw [toAffine_reps invP_inv (pointMult_exc amd64_sm2 hP hr)]
      rfl
    · rename_i hk
      exact toAffine_reps invP_inv (pointMult_reps amd64_sm2 hP hr hlt hk)

theorem reps_base {G : Pt sm2 (-3)} (hG : xy G = (sm2.Gx, sm2.Gy)) :
    G ≠ 0 ∧ Reps (⟨(sm2.Gx : K), (sm2.Gy : K), 1⟩ : Jac K) G := by
  have h0 : G ≠ 0 := by
    rintro rfl
    rw [Verif.Affine.xy_zero] at hG
    exact absurd hG (by decide +kernel)
  refine ⟨h0, reps_fromXY h0 ?_⟩
  rw [hG, Nat.mod_eq_of_lt good_sm2.gx_lt, Nat.mod_eq_of_lt good_sm2.gy_lt]

theorem baseTable_sm2 {G : Pt sm2 (-3)} (hG : xy G = (sm2.Gx, sm2.Gy)) :
    BaseMultiples G (baseTable (⟨(sm2.Gx : K), (sm2.Gy : K), 1⟩ : Jac K)) :=
  baseTable_reps amd64_sm2 invP_inv (reps_base hG).1 (reps_base hG).2

/-- ScalarBaseMult, for every scalar with an exact run. -/
theorem scalarBaseMult_xy {scalar : Bytes} {G : Pt sm2 (-3)} (hG : xy G = (sm2.Gx, sm2.Gy))
    (he : ExactBase scalar) : scalarBaseMult scalar = xy (natOfBytes scalar • G) := by
  unfold scalarBaseMult
  rw [pointToAffine_rel (BRel.baseMult rel_ops (JRel.baseTable rel_ops rel_basePoint)
    (getScalar scalar)) he, ← getScalar_smul]
  have hlt := getScalar_lt scalar
  generalize getScalar scalar = k at *
  have hb := baseMult_reps amd64_sm2 (reps_base hG).1 (baseTable_sm2 hG) hlt
  by_cases hk : k = 0
  · rw [hb.2 hk, deg_toAffine invP_inv (Or.inr ⟨rfl, rfl⟩), hk, zero_smul]
    rfl
  · exact toAffine_reps invP_inv (hb.1 hk)

/-- CombinedMult, for exact runs with no scalar that is a multiple of the order. -/
theorem combinedMult_xy {x y : ℕ} {s t : Bytes} {G P : Pt sm2 (-3)} (hG : xy G = (sm2.Gx, sm2.Gy))
    (h : xy P = (x % sm2.P, y % sm2.P)) (hP : P ≠ 0) (hs : natOfBytes s % sm2.N ≠ 0)
    (he : ExactCombined x y s t) :
    combinedMult x y s t =
      if natOfBytes t % sm2.N = 0 ∨ natOfBytes t % sm2.N = sm2.N - 6 ∨
          natOfBytes s • G = natOfBytes t • P then (0, 0)
      else xy (natOfBytes s • G + natOfBytes t • P) := by
  unfold combinedMult
  rw [pointToAffine_rel (JRel.add rel_ops
    (BRel.baseMult rel_ops (JRel.baseTable rel_ops rel_basePoint) (getScalar s))
    (JRel.pointMult rel_ops (rel_fromXY x y) (getScalar t))) he, ← getScalar_smul s,
    ← getScalar_smul t]
  have h1 : natOfBytes s % sm2.N = getScalar s := (getScalar_eq s).symm
  have h2 : natOfBytes t % sm2.N = getScalar t := (getScalar_eq t).symm
  rw [h1] at hs
  rw [h2]
  have hl1 := getScalar_lt s
  have hl2 := getScalar_lt t
  generalize getScalar s = k at *
  generalize getScalar t = l at *
  have hb := (baseMult_reps amd64_sm2 (reps_base hG).1 (baseTable_sm2 hG) hl1).1 hs
  have hr := reps_fromXY hP h
  have hkG : k • G ≠ 0 := by
    intro h0
    rw [← natCast_zsmul, zsmul_eq_zero amd64_sm2 (reps_base hG).1] at h0
    have := Nat.le_of_dvd (Nat.pos_of_ne_zero hs) (Int.natCast_dvd_natCast.1 h0)
    omega
  by_cases hl : l = sm2.N - 6
  · have := pointMult_exc amd64_sm2 hP hr
    rw [if_pos (Or.inr (Or.inl hl)), hl]
    exact toAffine_reps invP_inv (Q := 0) (reps_add_exc hb this (Or.inr (Or.inl rfl)))
  · have hm := pointMult_reps amd64_sm2 hP hr hl2 hl
    by_cases hl0 : l = 0
    · rw [if_pos (Or.inl hl0)]
      rw [hl0, zero_smul] at hm
      rw [hl0]
      exact toAffine_reps invP_inv (Q := 0) (reps_add_exc hb hm (Or.inr (Or.inl rfl)))
    · by_cases hkl : k • G = l • P
      · rw [if_pos (Or.inr (Or.inr hkl))]
        exact toAffine_reps invP_inv (Q := 0) (reps_add_exc hb hm (Or.inr (Or.inr hkl)))
      · rw [if_neg (by tauto)]
        refine toAffine_reps invP_inv (reps_add hb hm hkG ?_ hkl)
        intro h0
        rw [← natCast_zsmul, zsmul_eq_zero amd64_sm2 hP] at h0
        have := Nat.le_of_dvd (Nat.pos_of_ne_zero hl0) (Int.natCast_dvd_natCast.1 h0)
        omega

end Verif.X64.P256
