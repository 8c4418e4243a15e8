/-
p256_sm2PointAddAffineAsm computes the formulas of Model/P256Point, from every machine state.
-/
import Verif.Lemmas.P256Points

namespace Verif.X64.P256

set_option maxRecDepth 10000

/-- "Negate y2in based on sign", with the address of in2 in CX and the sign in DX. -/
theorem negA_wp {Q : St → Prop} {s : St} {rest : List Instr}
    (h : ∀ (w0 w1 w2 w3 : W) (s' : St), s'.mem = s.mem → s'.arg = s.arg →
      s'.stk = upd (upd (upd (upd s.stk 128 w0) 136 w1) 144 w2) 152 w3 →
      z w0 + B₁ * z w1 + B₂ * z w2 + B₃ * z w3 =
        ((if s.dx = 0 then rd4 s.mem (s.cx + 32) else subP P (rd4 s.mem (s.cx + 32)) : ℕ) : ℤ) →
      Q (exec rest s')) :
    Q (exec (pointAddAffineAsm_3 ++ (pointAddAffineAsm_4 ++ (pointAddAffineAsm_5 ++
      (pointAddAffineAsm_6 ++ (pointAddAffineAsm_7 ++ rest))))) s) := by
  simp only [pointAddAffineAsm_3, pointAddAffineAsm_4, pointAddAffineAsm_5, pointAddAffineAsm_6,
    pointAddAffineAsm_7, List.cons_append, List.nil_append]
  xmov
  xmov
  xmov
  xmov
  xmov
  xmov
  xmov
  xmov
  xxor
  xsub r1 c1 e1
  xsbb r2 c2 e2
  xsbb r3 c3 e3
  xsbb r4 c4 e4
  xsbb r5 c5 e5
  xmov
  xmov
  xmov
  xmov
  xadd r6 c6 e6
  xadc r7 c7 e7
  xadc r8 c8 e8
  xadc r9 c9 e9
  xadc r10 c10 e10
  xne
  xne
  xne
  xne
  xtest
  xeq
  xeq
  xeq
  xeq
  xmov
  xmov
  xmov
  xmov
  refine h _ _ _ _ _ rfl rfl rfl ?_
  have hr : (rd4 s.mem (s.cx + 32) : ℤ) = z (s.mem (s.cx + 32#64)) +
      B₁ * z (s.mem (s.cx + 40#64)) + B₂ * z (s.mem (s.cx + 48#64)) +
      B₃ * z (s.mem (s.cx + 56#64)) := by
    have := rd4_off s.mem s.cx 32
    rw [show s.cx + 32 = s.cx + BitVec.ofNat 64 32 from rfl, this]
    exact val4_cast _ _ _ _
  have hlt := rd4_lt s.mem (s.cx + 32)
  replace e2 : z r2 - B₁ * bz c2 = 18446744069414584320 - z (s.mem (s.cx + 40#64)) - bz c1 := e2
  replace e4 : z r4 - B₁ * bz c4 = 18446744069414584319 - z (s.mem (s.cx + 56#64)) - bz c3 := e4
  by_cases hd : s.dx = 0
  · simp only [hd, decide_true, if_true]
    exact hr.symm
  · simp only [hd, decide_false, Bool.false_eq_true, if_false]
    refine condAdd (x := P) (y := rd4 s.mem (s.cx + 32)) (by decide) hlt ?_ e5 e6 e7 e8 e9 e10
    rw [z_max] at e1 e3
    rw [hr, show ((P : ℕ) : ℤ) = pZ from rfl]
    linear_combination e1 + B₁ * e2 + B₂ * e3 + B₃ * e4

/-- What is known after the inputs have been moved to the frame cells 0 to 4. -/
def initA {F : Type} (a : Jac F) (x y : F) : ℕ → Option F
  | 0 => some a.x | 1 => some a.y | 2 => some a.z | 3 => some x | 4 => some y | _ => none

theorem addAffine_sem {F : Type} [Ops F] (a : Jac F) (x y : F) :
    ∃ v, runV pointAddAffineAsm_8 ⟨none, none, initA a x y⟩ = v ∧
      v.slot 0 = some a.x ∧ v.slot 1 = some a.y ∧ v.slot 2 = some a.z ∧
      v.slot 3 = some x ∧ v.slot 4 = some y ∧
      v.slot 5 = some (addAffine a x y).x ∧ v.slot 6 = some (addAffine a x y).y ∧
      v.slot 7 = some (addAffine a x y).z :=
  ⟨_, rfl, rfl, rfl, rfl, rfl, rfl, rfl, rfl, rfl⟩

/-! ### The masks -/

/-- `b` if `c` is 0 and `a` otherwise, by masks. -/
def selX (c : BitVec 32) (a b : Xmm) : Xmm := if c = 0 then b else a

/-- One lane of the masked choice. -/
theorem selLane (c a b : BitVec 32) :
    (a &&& (~~~(if c = 0 then BitVec.allOnes 32 else 0) &&& BitVec.allOnes 32)) ^^^
      (b &&& (if c = 0 then BitVec.allOnes 32 else 0)) = if c = 0 then b else a := by
  split
  · rw [BitVec.not_allOnes, BitVec.zero_and, BitVec.and_zero, BitVec.zero_xor, BitVec.and_allOnes]
  · change (a &&& (~~~0#32 &&& BitVec.allOnes 32)) ^^^ (b &&& 0#32) = a
    rw [BitVec.not_zero, BitVec.and_allOnes, BitVec.and_allOnes, BitVec.and_zero, BitVec.xor_zero]

theorem affine_out (s : St) :
    (exec (pointAddAffineAsm_9 ++ (pointAddAffineAsm_10 ++ (pointAddAffineAsm_11 ++
      pointAddAffineAsm_12))) s).mem =
    let c := ((s.stk 488).setWidth 32).setWidth 64 |>.extractLsb' 0 32
    let d := ((s.stk 492).setWidth 32).setWidth 64 |>.extractLsb' 0 32
    let ld := fun o => Xmm.ofWords (s.stk o) (s.stk (o + 8))
    let x0 := selX d (selX c (ld 160) (ld 0)) (ld 96)
    let x1 := selX d (selX c (ld 176) (ld 16)) (ld 112)
    let x2 := selX d (selX c (ld 192) (ld 32)) (ld 128)
    let x3 := selX d (selX c (ld 208) (ld 48)) (ld 144)
    let x4 := selX d (selX c (ld 224) (ld 64)) (Xmm.ofWords 1 0xFFFFFFFF)
    let x5 := selX d (selX c (ld 240) (ld 80)) (Xmm.ofWords 0 0x100000000)
    wrList s.mem (s.stk 480) [(88, x5.hi), (80, x5.lo), (72, x4.hi), (64, x4.lo), (56, x3.hi),
      (48, x3.lo), (40, x2.hi), (32, x2.lo), (24, x1.hi), (16, x1.lo), (8, x0.hi), (0, x0.lo)] := by
  simp only [pointAddAffineAsm_9, pointAddAffineAsm_10, pointAddAffineAsm_11,
    pointAddAffineAsm_12, List.cons_append, List.nil_append, exec, step, St.put, St.setReg,
    St.get, St.reg, St.getx, St.setx, Opd.next, upd_apply, Nat.reduceEqDiff, if_true, if_false,
    Xmm.map2, BitVec.xor_self, wrList]
  generalize ((s.stk 488).setWidth 32).setWidth 64 = c
  generalize ((s.stk 492).setWidth 32).setWidth 64 = d
  generalize c.extractLsb' 0 32 = c
  generalize d.extractLsb' 0 32 = d
  have hl : ∀ a b : BitVec 32, (a &&& (~~~(if c = 0#32 then BitVec.allOnes 32 else 0) &&&
      BitVec.allOnes 32)) ^^^ (b &&& (if c = 0#32 then BitVec.allOnes 32 else 0)) =
      if c = 0 then b else a := selLane c
  have hl' : ∀ a b : BitVec 32, (a &&& (~~~(if d = 0#32 then BitVec.allOnes 32 else 0) &&&
      BitVec.allOnes 32)) ^^^ (b &&& (if d = 0#32 then BitVec.allOnes 32 else 0)) =
      if d = 0 then b else a := selLane d
  simp only [hl, hl']
  unfold selX
  by_cases hc : c = 0 <;> by_cases hd : d = 0
  · simp only [hc, hd, if_true]; rfl
  · simp only [hc, hd, if_true, if_false]
  · simp only [hc, hd, if_true, if_false]; rfl
  · simp only [hc, hd, if_false]

/-! ### The whole routine -/

theorem affine_load (s : St) {Q : St → Prop}
    (h : ∀ s1 : St, s1.mem = s.mem → s1.arg = s.arg → s1.cx = s.arg 48 → s1.dx = s.arg 72 →
      s1.stk 480 = s.arg 0 → s1.stk 488 = ((s.arg 80).setWidth 32).setWidth 64 →
      s1.stk 492 = ((s.arg 88).setWidth 32).setWidth 64 →
      stk4 s1.stk 0 = rd4 s.mem (s.arg 24) → stk4 s1.stk 1 = rd4 s.mem (s.arg 24 + 32) →
      stk4 s1.stk 2 = rd4 s.mem (s.arg 24 + 64) → stk4 s1.stk 3 = rd4 s.mem (s.arg 48) → Q s1) :
    Q (exec (pointAddAffineAsm_1 ++ pointAddAffineAsm_2) s) := by
  refine h _ rfl rfl rfl rfl rfl rfl rfl ?_ ?_ ?_ ?_
  · refine Eq.trans ?_ (rd4_off0 s.mem (s.arg 24)).symm
    change val4 (Xmm.lo (Xmm.ofWords _ _)) (Xmm.hi (Xmm.ofWords _ _)) (Xmm.lo (Xmm.ofWords _ _))
      (Xmm.hi (Xmm.ofWords _ _)) = _
    rw [ofWords_lo, ofWords_hi, ofWords_lo, ofWords_hi]; rfl
  · refine Eq.trans ?_ (rd4_off s.mem (s.arg 24) 32).symm
    change val4 (Xmm.lo (Xmm.ofWords _ _)) (Xmm.hi (Xmm.ofWords _ _)) (Xmm.lo (Xmm.ofWords _ _))
      (Xmm.hi (Xmm.ofWords _ _)) = _
    rw [ofWords_lo, ofWords_hi, ofWords_lo, ofWords_hi]; rfl
  · refine Eq.trans ?_ (rd4_off s.mem (s.arg 24) 64).symm
    change val4 (Xmm.lo (Xmm.ofWords _ _)) (Xmm.hi (Xmm.ofWords _ _)) (Xmm.lo (Xmm.ofWords _ _))
      (Xmm.hi (Xmm.ofWords _ _)) = _
    rw [ofWords_lo, ofWords_hi, ofWords_lo, ofWords_hi]; rfl
  · refine Eq.trans ?_ (rd4_off0 s.mem (s.arg 48)).symm
    change val4 (Xmm.lo (Xmm.ofWords _ _)) (Xmm.hi (Xmm.ofWords _ _)) (Xmm.lo (Xmm.ofWords _ _))
      (Xmm.hi (Xmm.ofWords _ _)) = _
    rw [ofWords_lo, ofWords_hi, ofWords_lo, ofWords_hi]; rfl

/-- A 32-bit flag saved in the frame and loaded again. -/
theorem saved_flag (w : W) : BitVec.extractLsb' 0 32
    (((w.setWidth 32).setWidth 64 |>.setWidth 32).setWidth 64) = 0 ↔ w.toNat % 2 ^ 32 = 0 := by
  rw [← BitVec.toNat_inj]
  simp only [BitVec.extractLsb'_toNat, BitVec.toNat_setWidth, Nat.shiftRight_zero, BitVec.ofNat_eq_ofNat,
    BitVec.toNat_ofNat]
  omega

theorem affine_num {c d : BitVec 32} {f : ℕ → W} {i j k : ℕ} :
    val4 (selX d (selX c (Xmm.ofWords (f i) (f (i + 8))) (Xmm.ofWords (f j) (f (j + 8))))
        (Xmm.ofWords (f k) (f (k + 8)))).lo
      (selX d (selX c (Xmm.ofWords (f i) (f (i + 8))) (Xmm.ofWords (f j) (f (j + 8))))
        (Xmm.ofWords (f k) (f (k + 8)))).hi
      (selX d (selX c (Xmm.ofWords (f (i + 16)) (f (i + 16 + 8))) (Xmm.ofWords (f (j + 16)) (f (j + 16 + 8))))
        (Xmm.ofWords (f (k + 16)) (f (k + 16 + 8)))).lo
      (selX d (selX c (Xmm.ofWords (f (i + 16)) (f (i + 16 + 8))) (Xmm.ofWords (f (j + 16)) (f (j + 16 + 8))))
        (Xmm.ofWords (f (k + 16)) (f (k + 16 + 8)))).hi =
    if d = 0 then val4 (f k) (f (k + 8)) (f (k + 16)) (f (k + 24)) else
    if c = 0 then val4 (f j) (f (j + 8)) (f (j + 16)) (f (j + 24)) else
      val4 (f i) (f (i + 8)) (f (i + 16)) (f (i + 24)) := by
  unfold selX
  by_cases hc : c = 0 <;> by_cases hd : d = 0 <;> simp only [hc, hd, if_true, if_false, ofWords_lo, ofWords_hi]

theorem exec_pointAddAffine (s : St) : Wrote s.mem (exec pointAddAffineAsm s).mem (s.arg 0)
    (pointAddAffine oneM (rdJac s.mem (s.arg 24)) (rd4 s.mem (s.arg 48)) (rd4 s.mem (s.arg 48 + 32))
      (decide (s.arg 72 ≠ 0)) ((s.arg 80).toNat % 2 ^ 32) ((s.arg 88).toNat % 2 ^ 32)) := by
  have hsplit : exec pointAddAffineAsm s = exec (pointAddAffineAsm_9 ++ (pointAddAffineAsm_10 ++
      (pointAddAffineAsm_11 ++ pointAddAffineAsm_12))) (exec (pointAddAffineAsm_8.flatMap V.code)
      (exec (pointAddAffineAsm_3 ++ (pointAddAffineAsm_4 ++ (pointAddAffineAsm_5 ++
        (pointAddAffineAsm_6 ++ (pointAddAffineAsm_7 ++ [])))))
        (exec (pointAddAffineAsm_1 ++ pointAddAffineAsm_2) s))) := by
    unfold pointAddAffineAsm
    simp only [exec_append, List.append_nil]
  rw [hsplit]
  clear hsplit
  refine affine_load s (Q := fun s1 => Wrote s.mem (exec _ (exec _ (exec _ s1))).mem _ _) ?_
  intro s1 hmem harg hcx hdx h480 h488 h492 k0 k1 k2 k3
  refine negA_wp (Q := fun s2 => Wrote s.mem (exec _ (exec _ s2)).mem _ _) ?_
  intro w0 w1 w2 w3 s2 hmem2 harg2 hstk2 hw
  rw [hmem, hcx, hdx] at hw
  have hw := words_val4 hw
  have hy : (if s.arg 72 = 0 then rd4 s.mem (s.arg 48 + 32) else
      subP P (rd4 s.mem (s.arg 48 + 32))) =
      if decide (s.arg 72 ≠ 0) = true then negA (rd4 s.mem (s.arg 48 + 32)) else
        rd4 s.mem (s.arg 48 + 32) := by
    by_cases h : s.arg 72 = 0
    · simp only [h, if_true, ne_eq, not_true_eq_false, decide_false, Bool.false_eq_true, if_false]
    · simp only [h, if_false, ne_eq, not_false_eq_true, decide_true, if_true]
      exact (nat_negA _).symm
  rw [hy] at hw
  unfold pointAddAffine
  dsimp only
  generalize (if decide (s.arg 72 ≠ 0) = true then negA (rd4 s.mem (s.arg 48 + 32)) else
        rd4 s.mem (s.arg 48 + 32)) = y2 at *
  generalize hx2 : rd4 s.mem (s.arg 48) = x2 at *
  generalize hJ : rdJac s.mem (s.arg 24) = J at *
  have hJ1 : J.x = rd4 s.mem (s.arg 24) := by rw [← hJ]; rfl
  have hJ2 : J.y = rd4 s.mem (s.arg 24 + 32) := by rw [← hJ]; rfl
  have hJ3 : J.z = rd4 s.mem (s.arg 24 + 64) := by rw [← hJ]; rfl
  have hother : ∀ k, k ≠ 4 → stk4 s2.stk k = stk4 s1.stk k := fun k hk => by
    rw [hstk2]; exact stk4_upd_ne s1.stk (k := 4) hk _ _ _ _
  have h4 : stk4 s2.stk 4 = y2 := by
    rw [hstk2]; exact (stk4_upd_same s1.stk 4 _ _ _ _).trans hw
  have hfar : ∀ o, 480 ≤ o → s2.stk o = s1.stk o := fun o ho => by
    rw [hstk2]; exact upd_ge s1.stk (k := 4) (K := 15) (by decide) (by omega) _ _ _ _
  have h0 : Sim 15 s2 s2 ⟨none, none, initA J x2 y2⟩ := {
    acc := Is.none
    t := Is.none
    slot := by
      intro k _
      match k with
      | 0 => exact Is.some (by rw [hother 0 (by decide), k0, hJ1])
      | 1 => exact Is.some (by rw [hother 1 (by decide), k1, hJ2])
      | 2 => exact Is.some (by rw [hother 2 (by decide), k2, hJ3])
      | 3 => exact Is.some (by rw [hother 3 (by decide), k3])
      | 4 => exact Is.some h4
      | _ + 5 => exact Is.none
    mem := rfl
    arg := rfl
    stk := fun _ _ => rfl }
  have h1 := runV_sim pointAddAffineAsm_8 (by decide) h0
  obtain ⟨v, hv, v0, v1, v2, v3, v4, v5, v6, v7⟩ := addAffine_sem J x2 y2
  rw [hv] at h1
  generalize addAffine J x2 y2 = A at *
  change Wrote s.mem (exec _ (exec (pointAddAffineAsm_8.flatMap V.code) s2)).mem _ _
  generalize exec (pointAddAffineAsm_8.flatMap V.code) s2 = s3 at *
  rw [affine_out, h1.mem, hmem2, hmem, h1.stk 480 (by decide), hfar 480 (by decide), h480,
    h1.stk 488 (by decide), hfar 488 (by decide), h488,
    h1.stk 492 (by decide), hfar 492 (by decide), h492]
  dsimp only
  have fc := saved_flag (s.arg 80)
  have fd := saved_flag (s.arg 88)
  generalize (((s.arg 80).setWidth 32).setWidth 64 |>.setWidth 32).setWidth 64 = c at *
  generalize (((s.arg 88).setWidth 32).setWidth 64 |>.setWidth 32).setWidth 64 = d at *
  generalize c.extractLsb' 0 32 = c at *
  generalize d.extractLsb' 0 32 = d at *
  refine wrote_of_list ?_ rfl rfl rfl rfl rfl rfl rfl rfl rfl rfl rfl rfl ?_ ?_ ?_
  · intro e he
    fin_cases he
    exacts [⟨11, by decide, rfl⟩, ⟨10, by decide, rfl⟩, ⟨9, by decide, rfl⟩, ⟨8, by decide, rfl⟩,
      ⟨7, by decide, rfl⟩, ⟨6, by decide, rfl⟩, ⟨5, by decide, rfl⟩, ⟨4, by decide, rfl⟩,
      ⟨3, by decide, rfl⟩, ⟨2, by decide, rfl⟩, ⟨1, by decide, rfl⟩, ⟨0, by decide, rfl⟩]
  · refine (affine_num (f := s3.stk) (i := 160) (j := 0) (k := 96)).trans ?_
    have e0 : val4 (s3.stk 0) (s3.stk 8) (s3.stk 16) (s3.stk 24) = J.x := h1.slot 0 (by decide) _ v0
    have e1 : val4 (s3.stk 96) (s3.stk 104) (s3.stk 112) (s3.stk 120) = x2 := h1.slot 3 (by decide) _ v3
    have e2 : val4 (s3.stk 160) (s3.stk 168) (s3.stk 176) (s3.stk 184) = A.x := h1.slot 5 (by decide) _ v5
    rw [e0, e1, e2]
    by_cases hc : c = 0 <;> by_cases hd : d = 0 <;>
      simp only [hc, hd, if_true, if_false, ← fc, ← fd]
  · refine (affine_num (f := s3.stk) (i := 192) (j := 32) (k := 128)).trans ?_
    have e0 : val4 (s3.stk 32) (s3.stk 40) (s3.stk 48) (s3.stk 56) = J.y := h1.slot 1 (by decide) _ v1
    have e1 : val4 (s3.stk 128) (s3.stk 136) (s3.stk 144) (s3.stk 152) = y2 := h1.slot 4 (by decide) _ v4
    have e2 : val4 (s3.stk 192) (s3.stk 200) (s3.stk 208) (s3.stk 216) = A.y := h1.slot 6 (by decide) _ v6
    rw [e0, e1, e2]
    by_cases hc : c = 0 <;> by_cases hd : d = 0 <;>
      simp only [hc, hd, if_true, if_false, ← fc, ← fd]
  · have e0 : val4 (s3.stk 64) (s3.stk 72) (s3.stk 80) (s3.stk 88) = J.z := h1.slot 2 (by decide) _ v2
    have e2 : val4 (s3.stk 224) (s3.stk 232) (s3.stk 240) (s3.stk 248) = A.z := h1.slot 7 (by decide) _ v7
    unfold selX
    by_cases hc : c = 0 <;> by_cases hd : d = 0 <;>
      simp only [hc, hd, if_true, if_false, ← fc, ← fd, ofWords_lo, ofWords_hi, e0, e2] <;>
      rfl

end Verif.X64.P256
