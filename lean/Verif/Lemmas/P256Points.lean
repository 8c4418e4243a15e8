/-
p256_sm2PointAddAsm and p256_sm2PointDoubleAsm compute the formulas of Model/P256Point, from every
machine state.
-/
import Verif.Lemmas.P256Sim
import Mathlib.Tactic.FinCases

namespace Verif.X64.P256

set_option maxRecDepth 10000

/-- The point in the twelve words at address `a`. -/
def rdJac (m : W → W) (a : W) : Jac ℕ := ⟨rd4 m a, rd4 m (a + 32), rd4 m (a + 64)⟩

/-- `m'` is `m` with the point `j` in the twelve words at address `a`. -/
def Wrote (m m' : W → W) (a : W) (j : Jac ℕ) : Prop :=
  rdJac m' a = j ∧ ∀ b, (∀ i < 12, b ≠ a + BitVec.ofNat 64 (8 * i)) → m' b = m b

theorem ofNat64_inj {i j : ℕ} (hi : i < 2 ^ 64) (hj : j < 2 ^ 64)
    (h : BitVec.ofNat 64 i = BitVec.ofNat 64 j) : i = j := by
  have := congrArg BitVec.toNat h
  rw [BitVec.toNat_ofNat, BitVec.toNat_ofNat] at this
  omega

theorem addr_ne (a : W) {i j : ℕ} (hi : i < 2 ^ 64) (hj : j < 2 ^ 64) (h : i ≠ j) :
    a + BitVec.ofNat 64 i ≠ a + BitVec.ofNat 64 j :=
  add_ne a _ _ fun e => h (ofNat64_inj hi hj e)

theorem addr_assoc (a : W) (i j : ℕ) :
    a + BitVec.ofNat 64 i + BitVec.ofNat 64 j = a + BitVec.ofNat 64 (i + j) := by
  rw [BitVec.add_assoc, BitVec.ofNat_add]

/-- The number at offset `o`, with all offsets written out. -/
theorem rd4_off (m : W → W) (a : W) (o : ℕ) : rd4 m (a + BitVec.ofNat 64 o) =
    val4 (m (a + BitVec.ofNat 64 (o + 0))) (m (a + BitVec.ofNat 64 (o + 8)))
      (m (a + BitVec.ofNat 64 (o + 16))) (m (a + BitVec.ofNat 64 (o + 24))) := by
  unfold rd4
  rw [show (8 : W) = BitVec.ofNat 64 8 from rfl, show (16 : W) = BitVec.ofNat 64 16 from rfl,
    show (24 : W) = BitVec.ofNat 64 24 from rfl, addr_assoc, addr_assoc, addr_assoc]
  rfl

theorem rd4_off0 (m : W → W) (a : W) : rd4 m a =
    val4 (m (a + BitVec.ofNat 64 0)) (m (a + BitVec.ofNat 64 8))
      (m (a + BitVec.ofNat 64 16)) (m (a + BitVec.ofNat 64 24)) := by
  have := rd4_off m a 0
  rw [show a + BitVec.ofNat 64 0 = a from by simp] at this
  rw [this, show a + BitVec.ofNat 64 0 = a from by simp]

/-- Twelve words written one after the other, in any order: what is read back.  `l` lists the
offsets and the words. -/
def wrList (m : W → W) (a : W) : List (ℕ × W) → (W → W)
  | [] => m
  | (o, w) :: l => upd (wrList m a l) (a + BitVec.ofNat 64 o) w

theorem wrList_other {m : W → W} {a b : W} (l : List (ℕ × W))
    (h : ∀ e ∈ l, b ≠ a + BitVec.ofNat 64 e.1) : wrList m a l b = m b := by
  induction l with
  | nil => rfl
  | cons e l ih =>
    obtain ⟨o, w⟩ := e
    unfold wrList upd
    rw [if_neg (h _ List.mem_cons_self)]
    exact ih fun e he => h e (List.mem_cons_of_mem _ he)

theorem wrList_get {m : W → W} {a : W} {l : List (ℕ × W)} {o : ℕ} {w : W}
    (hs : ∀ e ∈ l, e.1 < 2 ^ 64) (ho : o < 2 ^ 64) (hl : l.lookup o = some w) :
    wrList m a l (a + BitVec.ofNat 64 o) = w := by
  induction l with
  | nil => cases hl
  | cons e l ih =>
    obtain ⟨o', w'⟩ := e
    unfold wrList upd
    by_cases h : o = o'
    · subst h
      rw [if_pos rfl]
      simpa [List.lookup] using hl
    · rw [if_neg (addr_ne a ho (hs _ List.mem_cons_self) h)]
      refine ih (fun e he => hs e (List.mem_cons_of_mem _ he)) ?_
      rwa [List.lookup_cons, beq_false_of_ne h] at hl

/-- What is known after a point has been moved to the frame cells 0, 1, 2. -/
def init1 {F : Type} (a : Jac F) : ℕ → Option F
  | 0 => some a.x | 1 => some a.y | 2 => some a.z | _ => none

/-- What is known after two points have been moved to the frame cells 0 to 5. -/
def init2 {F : Type} (a b : Jac F) : ℕ → Option F
  | 0 => some a.x | 1 => some a.y | 2 => some a.z
  | 3 => some b.x | 4 => some b.y | 5 => some b.z | _ => none

theorem Is.some {v w : ℕ} (h : w = v) : Is (some v) w := fun _ e => by cases e; exact h

/-! ### p256_sm2PointAddAsm -/

theorem pointAdd_load (s : St) : Sim 20 (exec (pointAddAsm_1 ++ pointAddAsm_2) s)
    (exec (pointAddAsm_1 ++ pointAddAsm_2) s)
    ⟨none, none, init2 (rdJac s.mem (s.arg 24)) (rdJac s.mem (s.arg 48))⟩ where
  acc := Is.none
  t := Is.none
  slot k _ := by
    match k with
    | 0 =>
      refine Is.some (Eq.trans ?_ (rd4_off0 s.mem (s.arg 24)).symm)
      change val4 (Xmm.lo (Xmm.ofWords _ _)) (Xmm.hi (Xmm.ofWords _ _)) (Xmm.lo (Xmm.ofWords _ _))
        (Xmm.hi (Xmm.ofWords _ _)) = _
      rw [ofWords_lo, ofWords_hi, ofWords_lo, ofWords_hi]; rfl
    | 1 =>
      refine Is.some (Eq.trans ?_ (rd4_off s.mem (s.arg 24) 32).symm)
      change val4 (Xmm.lo (Xmm.ofWords _ _)) (Xmm.hi (Xmm.ofWords _ _)) (Xmm.lo (Xmm.ofWords _ _))
        (Xmm.hi (Xmm.ofWords _ _)) = _
      rw [ofWords_lo, ofWords_hi, ofWords_lo, ofWords_hi]; rfl
    | 2 =>
      refine Is.some (Eq.trans ?_ (rd4_off s.mem (s.arg 24) 64).symm)
      change val4 (Xmm.lo (Xmm.ofWords _ _)) (Xmm.hi (Xmm.ofWords _ _)) (Xmm.lo (Xmm.ofWords _ _))
        (Xmm.hi (Xmm.ofWords _ _)) = _
      rw [ofWords_lo, ofWords_hi, ofWords_lo, ofWords_hi]; rfl
    | 3 =>
      refine Is.some (Eq.trans ?_ (rd4_off0 s.mem (s.arg 48)).symm)
      change val4 (Xmm.lo (Xmm.ofWords _ _)) (Xmm.hi (Xmm.ofWords _ _)) (Xmm.lo (Xmm.ofWords _ _))
        (Xmm.hi (Xmm.ofWords _ _)) = _
      rw [ofWords_lo, ofWords_hi, ofWords_lo, ofWords_hi]; rfl
    | 4 =>
      refine Is.some (Eq.trans ?_ (rd4_off s.mem (s.arg 48) 32).symm)
      change val4 (Xmm.lo (Xmm.ofWords _ _)) (Xmm.hi (Xmm.ofWords _ _)) (Xmm.lo (Xmm.ofWords _ _))
        (Xmm.hi (Xmm.ofWords _ _)) = _
      rw [ofWords_lo, ofWords_hi, ofWords_lo, ofWords_hi]; rfl
    | 5 =>
      refine Is.some (Eq.trans ?_ (rd4_off s.mem (s.arg 48) 64).symm)
      change val4 (Xmm.lo (Xmm.ofWords _ _)) (Xmm.hi (Xmm.ofWords _ _)) (Xmm.lo (Xmm.ofWords _ _))
        (Xmm.hi (Xmm.ofWords _ _)) = _
      rw [ofWords_lo, ofWords_hi, ofWords_lo, ofWords_hi]; rfl
    | _ + 6 => exact Is.none
  mem := rfl
  arg := rfl
  stk _ _ := rfl

macro "vstep" : tactic => `(tactic| (rw [runV_cons]; simp only [V.sem, upd_apply, init1, init2,
  op2_some, Nat.reduceEqDiff, if_true, if_false, reduceIte, reduceCtorEq]))

theorem pointAdd_sem {F : Type} [Ops F] (a b : Jac F) {Q : VS F → Prop}
    (h : ∀ v : VS F, v.slot 6 = some (pointAdd a b).x → v.slot 7 = some (pointAdd a b).y →
      v.slot 8 = some (pointAdd a b).z → Q v) :
    Q (runV pointAddAsm_3 ⟨none, none, init2 a b⟩) := by
  unfold pointAddAsm_3
  repeat vstep
  rw [runV_nil]
  refine h _ ?_ ?_ ?_
  all_goals simp only [upd_apply, Nat.reduceEqDiff, if_true, if_false]
  all_goals rfl

theorem pointAdd_out (s : St) : (exec (pointAddAsm_4 ++ pointAddAsm_5) s).mem =
    wrList s.mem (s.stk 640) [
      (88, (Xmm.ofWords (s.stk 272) (s.stk 280)).hi), (80, (Xmm.ofWords (s.stk 272) (s.stk 280)).lo),
      (72, (Xmm.ofWords (s.stk 256) (s.stk 264)).hi), (64, (Xmm.ofWords (s.stk 256) (s.stk 264)).lo),
      (56, (Xmm.ofWords (s.stk 240) (s.stk 248)).hi), (48, (Xmm.ofWords (s.stk 240) (s.stk 248)).lo),
      (40, (Xmm.ofWords (s.stk 224) (s.stk 232)).hi), (32, (Xmm.ofWords (s.stk 224) (s.stk 232)).lo),
      (24, (Xmm.ofWords (s.stk 208) (s.stk 216)).hi), (16, (Xmm.ofWords (s.stk 208) (s.stk 216)).lo),
      (8, (Xmm.ofWords (s.stk 192) (s.stk 200)).hi), (0, (Xmm.ofWords (s.stk 192) (s.stk 200)).lo)] :=
  rfl

theorem wrote_of_list {m : W → W} {a : W} {l : List (ℕ × W)} {j : Jac ℕ}
    (hl : ∀ e ∈ l, ∃ i < 12, e.1 = 8 * i)
    {x0 x1 x2 x3 y0 y1 y2 y3 z0 z1 z2 z3 : W}
    (hx0 : l.lookup 0 = some x0) (hx1 : l.lookup 8 = some x1) (hx2 : l.lookup 16 = some x2)
    (hx3 : l.lookup 24 = some x3) (hy0 : l.lookup 32 = some y0) (hy1 : l.lookup 40 = some y1)
    (hy2 : l.lookup 48 = some y2) (hy3 : l.lookup 56 = some y3) (hz0 : l.lookup 64 = some z0)
    (hz1 : l.lookup 72 = some z1) (hz2 : l.lookup 80 = some z2) (hz3 : l.lookup 88 = some z3)
    (hx : val4 x0 x1 x2 x3 = j.x) (hy : val4 y0 y1 y2 y3 = j.y) (hz : val4 z0 z1 z2 z3 = j.z) :
    Wrote m (wrList m a l) a j := by
  have hs : ∀ e ∈ l, e.1 < 2 ^ 64 := fun e he => by
    obtain ⟨i, hi, h⟩ := hl e he
    omega
  constructor
  · unfold rdJac
    have h1 := rd4_off0 (wrList m a l) a
    have h2 := rd4_off (wrList m a l) a 32
    have h3 := rd4_off (wrList m a l) a 64
    rw [wrList_get hs (by decide) hx0, wrList_get hs (by decide) hx1,
      wrList_get hs (by decide) hx2, wrList_get hs (by decide) hx3, hx] at h1
    rw [wrList_get hs (by decide) hy0, wrList_get hs (by decide) hy1,
      wrList_get hs (by decide) hy2, wrList_get hs (by decide) hy3, hy] at h2
    rw [wrList_get hs (by decide) hz0, wrList_get hs (by decide) hz1,
      wrList_get hs (by decide) hz2, wrList_get hs (by decide) hz3, hz] at h3
    rw [h1, show (32 : W) = BitVec.ofNat 64 32 from rfl, h2,
      show (64 : W) = BitVec.ofNat 64 64 from rfl, h3]
  · intro b hb
    refine wrList_other l fun e he => ?_
    obtain ⟨i, hi, h⟩ := hl e he
    rw [h]
    exact hb i hi

theorem exec_pointAdd (s : St) : Wrote s.mem (exec pointAddAsm s).mem (s.arg 0)
    (pointAdd (rdJac s.mem (s.arg 24)) (rdJac s.mem (s.arg 48))) := by
  have h0 := pointAdd_load s
  have harg : (exec (pointAddAsm_1 ++ pointAddAsm_2) s).stk 640 = s.arg 0 := rfl
  have hmem : (exec (pointAddAsm_1 ++ pointAddAsm_2) s).mem = s.mem := rfl
  have hsplit : exec pointAddAsm s = exec (pointAddAsm_4 ++ pointAddAsm_5)
      (exec (pointAddAsm_3.flatMap V.code) (exec (pointAddAsm_1 ++ pointAddAsm_2) s)) := by
    unfold pointAddAsm
    simp only [exec_append]
  rw [hsplit]
  generalize exec (pointAddAsm_1 ++ pointAddAsm_2) s = s1 at *
  have h1 := runV_sim pointAddAsm_3 (by decide) h0
  generalize exec (pointAddAsm_3.flatMap V.code) s1 = s2 at *
  rw [pointAdd_out, h1.mem, hmem, h1.stk 640 (by decide), harg]
  revert h1
  refine pointAdd_sem (Q := fun v => Sim 20 s1 s2 v → _) _ _ fun v h6 h7 h8 h1 => ?_
  refine wrote_of_list ?_ rfl rfl rfl rfl rfl rfl rfl rfl rfl rfl rfl rfl ?_ ?_ ?_
  · intro e he
    fin_cases he
    exacts [⟨11, by decide, rfl⟩, ⟨10, by decide, rfl⟩, ⟨9, by decide, rfl⟩, ⟨8, by decide, rfl⟩,
      ⟨7, by decide, rfl⟩, ⟨6, by decide, rfl⟩, ⟨5, by decide, rfl⟩, ⟨4, by decide, rfl⟩,
      ⟨3, by decide, rfl⟩, ⟨2, by decide, rfl⟩, ⟨1, by decide, rfl⟩, ⟨0, by decide, rfl⟩]
  · rw [ofWords_lo, ofWords_hi, ofWords_lo, ofWords_hi]
    exact h1.slot 6 (by decide) _ h6
  · rw [ofWords_lo, ofWords_hi, ofWords_lo, ofWords_hi]
    exact h1.slot 7 (by decide) _ h7
  · rw [ofWords_lo, ofWords_hi, ofWords_lo, ofWords_hi]
    exact h1.slot 8 (by decide) _ h8

/-! ### p256_sm2PointDoubleAsm -/

theorem pointDouble_load (s : St) : Sim 7 (exec (pointDoubleAsm_1 ++ pointDoubleAsm_2) s)
    (exec (pointDoubleAsm_1 ++ pointDoubleAsm_2) s)
    ⟨none, none, init1 (rdJac s.mem (s.arg 24))⟩ where
  acc := Is.none
  t := Is.none
  slot k _ := by
    match k with
    | 0 =>
      refine Is.some (Eq.trans ?_ (rd4_off0 s.mem (s.arg 24)).symm)
      change val4 (Xmm.lo (Xmm.ofWords _ _)) (Xmm.hi (Xmm.ofWords _ _)) (Xmm.lo (Xmm.ofWords _ _))
        (Xmm.hi (Xmm.ofWords _ _)) = _
      rw [ofWords_lo, ofWords_hi, ofWords_lo, ofWords_hi]; rfl
    | 1 =>
      refine Is.some (Eq.trans ?_ (rd4_off s.mem (s.arg 24) 32).symm)
      change val4 (Xmm.lo (Xmm.ofWords _ _)) (Xmm.hi (Xmm.ofWords _ _)) (Xmm.lo (Xmm.ofWords _ _))
        (Xmm.hi (Xmm.ofWords _ _)) = _
      rw [ofWords_lo, ofWords_hi, ofWords_lo, ofWords_hi]; rfl
    | 2 =>
      refine Is.some (Eq.trans ?_ (rd4_off s.mem (s.arg 24) 64).symm)
      change val4 (Xmm.lo (Xmm.ofWords _ _)) (Xmm.hi (Xmm.ofWords _ _)) (Xmm.lo (Xmm.ofWords _ _))
        (Xmm.hi (Xmm.ofWords _ _)) = _
      rw [ofWords_lo, ofWords_hi, ofWords_lo, ofWords_hi]; rfl
    | _ + 3 => exact Is.none
  mem := rfl
  arg := rfl
  stk _ _ := rfl

/-- "Divide by 2". -/
def halfV {F : Type} [Ops F] (v : VS F) : VS F :=
  { v with acc := v.acc.map Ops.half, t := v.acc }

/-- The four stretches of p256_sm2PointDoubleAsm between the stores of the result. -/
def double1 {F : Type} [Ops F] (a : Jac F) : VS F := runV pointDoubleAsm_3 ⟨none, none, init1 a⟩
def double2 {F : Type} [Ops F] (a : Jac F) : VS F := runV pointDoubleAsm_6 (double1 a)
def double3 {F : Type} [Ops F] (a : Jac F) : VS F := runV pointDoubleAsm_10 (halfV (double2 a))
def double4 {F : Type} [Ops F] (a : Jac F) : VS F := runV pointDoubleAsm_13 (double3 a)

theorem double_sem {F : Type} [Ops F] (a : Jac F) :
    (double1 a).t = some (pointDouble a).z ∧ (double3 a).acc = some (pointDouble a).x ∧
    (double4 a).acc = some (pointDouble a).y := ⟨rfl, rfl, rfl⟩

theorem Sim.half {K : ℕ} {s₀ s : St} {v : VS ℕ} (h : Sim K s₀ s v) :
    Sim K s₀ (exec (pointDoubleAsm_7 ++ (pointDoubleAsm_8.flatMap V.code ++ pointDoubleAsm_9)) s)
      (halfV v) := by
  have := @half_wp (fun s' => Sim K s₀ s' (halfV v)) s []
    (fun _ _ _ _ _ _ _ hw => ⟨?_, h.acc, h.slot, h.mem, h.arg, h.stk⟩)
  · rwa [List.append_nil] at this
  · intro x hx
    cases hv : v.acc with
    | none => rw [halfV, hv] at hx; cases hx
    | some y =>
      rw [halfV, hv] at hx
      cases hx
      exact (words_val4 hw).trans ((congrArg halfP (h.acc y hv)).trans (nat_half y).symm)

/-- The state after the words of `l` have been stored at the address in frame cell `o`. -/
def stored (s : St) (o : ℕ) (l : List (ℕ × W)) : St :=
  { s with ax := s.stk o, mem := wrList s.mem (s.stk o) l }

theorem Sim.stored {K : ℕ} {s₀ s : St} {v : VS ℕ} (h : Sim K s₀ s v) (o : ℕ) (l : List (ℕ × W)) :
    Sim K (stored s o l) (stored s o l) v :=
  ⟨h.acc, h.t, h.slot, rfl, rfl, fun _ _ => rfl⟩

theorem double_storeZ (s : St) : (exec (pointDoubleAsm_4 ++ pointDoubleAsm_5) s) =
    stored s 224 [(88, s.si), (80, s.di), (72, s.r15), (64, s.r14)] := by
  simp only [pointDoubleAsm_4, pointDoubleAsm_5, List.cons_append, List.nil_append, exec, step,
    St.put, St.setReg, St.get, St.reg, wrList, stored]

theorem double_storeX (s : St) : (exec (pointDoubleAsm_11 ++ pointDoubleAsm_12) s) =
    stored s 224 [(24, s.r13), (16, s.r12), (8, s.r11), (0, s.r10)] := by
  simp only [pointDoubleAsm_11, pointDoubleAsm_12, List.cons_append, List.nil_append, exec, step,
    St.put, St.setReg, St.get, St.reg, wrList, stored]

theorem double_storeY (s : St) : (exec (pointDoubleAsm_14 ++ pointDoubleAsm_15) s).mem =
    wrList s.mem (s.stk 224) [(56, s.r13), (48, s.r12), (40, s.r11), (32, s.r10)] := by
  simp only [pointDoubleAsm_14, pointDoubleAsm_15, List.cons_append, List.nil_append, exec, step,
    St.put, St.setReg, St.get, St.reg, wrList]

theorem stored_mem (s : St) (o : ℕ) (l : List (ℕ × W)) :
    (stored s o l).mem = wrList s.mem (s.stk o) l := rfl

theorem stored_stk (s : St) (o : ℕ) (l : List (ℕ × W)) (k : ℕ) :
    (stored s o l).stk k = s.stk k := rfl

theorem exec_pointDouble (s : St) : Wrote s.mem (exec pointDoubleAsm s).mem (s.arg 0)
    (pointDouble (rdJac s.mem (s.arg 24))) := by
  have h0 := pointDouble_load s
  have harg : (exec (pointDoubleAsm_1 ++ pointDoubleAsm_2) s).stk 224 = s.arg 0 := rfl
  have hmem : (exec (pointDoubleAsm_1 ++ pointDoubleAsm_2) s).mem = s.mem := rfl
  have hsplit : exec pointDoubleAsm s = exec (pointDoubleAsm_14 ++ pointDoubleAsm_15)
      (exec (pointDoubleAsm_13.flatMap V.code) (exec (pointDoubleAsm_11 ++ pointDoubleAsm_12)
      (exec (pointDoubleAsm_10.flatMap V.code)
      (exec (pointDoubleAsm_7 ++ (pointDoubleAsm_8.flatMap V.code ++ pointDoubleAsm_9))
      (exec (pointDoubleAsm_6.flatMap V.code) (exec (pointDoubleAsm_4 ++ pointDoubleAsm_5)
      (exec (pointDoubleAsm_3.flatMap V.code)
        (exec (pointDoubleAsm_1 ++ pointDoubleAsm_2) s)))))))) := by
    unfold pointDoubleAsm
    simp only [exec_append]
  rw [hsplit]
  clear hsplit
  obtain ⟨hz, hx, hy⟩ := double_sem (rdJac s.mem (s.arg 24))
  generalize exec (pointDoubleAsm_1 ++ pointDoubleAsm_2) s = s1 at *
  generalize rdJac s.mem (s.arg 24) = J at *
  have h1 := runV_sim pointDoubleAsm_3 (by decide) h0
  rw [← double1] at h1
  generalize exec (pointDoubleAsm_3.flatMap V.code) s1 = s2 at *
  have e2 := (h1.stk 224 (by decide)).trans harg
  have h3 := h1.stored 224 [(88, s2.si), (80, s2.di), (72, s2.r15), (64, s2.r14)]
  have m3 := stored_mem s2 224 [(88, s2.si), (80, s2.di), (72, s2.r15), (64, s2.r14)]
  have k3 := stored_stk s2 224 [(88, s2.si), (80, s2.di), (72, s2.r15), (64, s2.r14)] 224
  rw [h1.mem, hmem, e2] at m3
  rw [e2] at k3
  rw [double_storeZ]
  generalize stored s2 224 [(88, s2.si), (80, s2.di), (72, s2.r15), (64, s2.r14)] = s3 at *
  have h4 := runV_sim pointDoubleAsm_6 (by decide) h3
  rw [← double2] at h4
  generalize exec (pointDoubleAsm_6.flatMap V.code) s3 = s4 at *
  have h5 := h4.half
  generalize exec (pointDoubleAsm_7 ++ (pointDoubleAsm_8.flatMap V.code ++ pointDoubleAsm_9)) s4 =
    s5 at *
  have h6 := runV_sim pointDoubleAsm_10 (by decide) h5
  rw [← double3] at h6
  generalize exec (pointDoubleAsm_10.flatMap V.code) s5 = s6 at *
  have e6 := (h6.stk 224 (by decide)).trans k3
  have h7 := h6.stored 224 [(24, s6.r13), (16, s6.r12), (8, s6.r11), (0, s6.r10)]
  have m7 := stored_mem s6 224 [(24, s6.r13), (16, s6.r12), (8, s6.r11), (0, s6.r10)]
  have k7 := stored_stk s6 224 [(24, s6.r13), (16, s6.r12), (8, s6.r11), (0, s6.r10)] 224
  rw [h6.mem, m3, e6] at m7
  rw [e6] at k7
  rw [double_storeX]
  generalize stored s6 224 [(24, s6.r13), (16, s6.r12), (8, s6.r11), (0, s6.r10)] = s7 at *
  have h8 := runV_sim pointDoubleAsm_13 (by decide) h7
  rw [← double4] at h8
  generalize exec (pointDoubleAsm_13.flatMap V.code) s7 = s8 at *
  rw [double_storeY, (h8.stk 224 (by decide)).trans k7, h8.mem, m7]
  refine wrote_of_list (l := [(56, s8.r13), (48, s8.r12), (40, s8.r11), (32, s8.r10),
    (24, s6.r13), (16, s6.r12), (8, s6.r11), (0, s6.r10),
    (88, s2.si), (80, s2.di), (72, s2.r15), (64, s2.r14)]) ?_ rfl rfl rfl rfl rfl rfl rfl rfl rfl
    rfl rfl rfl (h6.acc _ hx) (h8.acc _ hy) (h1.t _ hz)
  intro e he
  fin_cases he
  exacts [⟨7, by decide, rfl⟩, ⟨6, by decide, rfl⟩, ⟨5, by decide, rfl⟩, ⟨4, by decide, rfl⟩,
    ⟨3, by decide, rfl⟩, ⟨2, by decide, rfl⟩, ⟨1, by decide, rfl⟩, ⟨0, by decide, rfl⟩,
    ⟨11, by decide, rfl⟩, ⟨10, by decide, rfl⟩, ⟨9, by decide, rfl⟩, ⟨8, by decide, rfl⟩]

end Verif.X64.P256
