/-
p256_sm2MovCond, p256_sm2Select, p256_sm2SelectBase and p256_sm2BigToLittle, from every machine
state.
-/
import Verif.Lemmas.P256Affine
import Mathlib.Tactic.IntervalCases
import Verif.Spec.P256
import Verif.Lemmas.Bytes
import Verif.Model.P256Select

namespace Verif.X64.P256

open Verif.Spec.P256

set_option maxRecDepth 10000

/-! ### p256_sm2MovCond -/

theorem selLane' (c a b : BitVec 32) :
    (~~~(if c = 0 then BitVec.allOnes 32 else 0) &&& a) ^^^
      (b &&& (if c = 0 then BitVec.allOnes 32 else 0)) = if c = 0 then b else a := by
  split
  · rw [BitVec.not_allOnes, BitVec.zero_and, BitVec.zero_xor, BitVec.and_allOnes]
  · change (~~~0#32 &&& a) ^^^ (b &&& 0#32) = a
    rw [BitVec.not_zero, BitVec.allOnes_and, BitVec.and_zero, BitVec.xor_zero]

theorem movCond_out (s : St) : (exec movCond s).mem =
    let c := (s.arg 72).extractLsb' 0 32
    let ld := fun (a : W) (o : ℕ) =>
      Xmm.ofWords (s.mem (a + BitVec.ofNat 64 o)) (s.mem (a + BitVec.ofNat 64 (o + 8)))
    let x := fun (o : ℕ) => selX c (ld (s.arg 24) o) (ld (s.arg 48) o)
    wrList s.mem (s.arg 0) [(88, (x 80).hi), (80, (x 80).lo), (72, (x 64).hi), (64, (x 64).lo),
      (56, (x 48).hi), (48, (x 48).lo), (40, (x 32).hi), (32, (x 32).lo), (24, (x 16).hi),
      (16, (x 16).lo), (8, (x 0).hi), (0, (x 0).lo)] := by
  simp only [movCond, movCond_1, exec, step, St.put, St.setReg,
    St.get, St.reg, St.getx, St.setx, Opd.next, upd_apply, Nat.reduceEqDiff, if_true, if_false,
    Xmm.map2, BitVec.xor_self, wrList]
  have h0 : (Xmm.ofWords (s.arg 72) 0).l0 = (s.arg 72).extractLsb' 0 32 := rfl
  rw [h0]
  generalize (s.arg 72).extractLsb' 0 32 = c
  have hl : ∀ a b : BitVec 32, (~~~(if c = 0#32 then BitVec.allOnes 32 else 0) &&& a) ^^^
      (b &&& (if c = 0#32 then BitVec.allOnes 32 else 0)) =
      if c = 0 then b else a := selLane' c
  simp only [hl]
  unfold selX
  by_cases hc : c = 0
  · simp only [hc, if_true]
  · simp only [hc, if_false]

theorem flag32 (w : W) : w.extractLsb' 0 32 = 0 ↔ w.toNat % 2 ^ 32 = 0 := by
  rw [← BitVec.toNat_inj]
  simp only [BitVec.extractLsb'_toNat, Nat.shiftRight_zero, BitVec.ofNat_eq_ofNat,
    BitVec.toNat_ofNat]

theorem exec_movCond (s : St) : Wrote s.mem (exec movCond s).mem (s.arg 0)
    (if (s.arg 72).toNat % 2 ^ 32 = 0 then rdJac s.mem (s.arg 48) else rdJac s.mem (s.arg 24)) := by
  rw [movCond_out]
  dsimp only
  have hf := flag32 (s.arg 72)
  generalize (s.arg 72).extractLsb' 0 32 = c at *
  refine wrote_of_list ?_ rfl rfl rfl rfl rfl rfl rfl rfl rfl rfl rfl rfl ?_ ?_ ?_
  · intro e he
    fin_cases he
    exacts [⟨11, by decide, rfl⟩, ⟨10, by decide, rfl⟩, ⟨9, by decide, rfl⟩, ⟨8, by decide, rfl⟩,
      ⟨7, by decide, rfl⟩, ⟨6, by decide, rfl⟩, ⟨5, by decide, rfl⟩, ⟨4, by decide, rfl⟩,
      ⟨3, by decide, rfl⟩, ⟨2, by decide, rfl⟩, ⟨1, by decide, rfl⟩, ⟨0, by decide, rfl⟩]
  all_goals
    unfold selX
    by_cases hc : c = 0 <;>
      simp only [hc, if_true, if_false, ← hf, ofWords_lo, ofWords_hi]
  · exact (rd4_off0 s.mem (s.arg 48)).symm
  · exact (rd4_off0 s.mem (s.arg 24)).symm
  · exact (rd4_off s.mem (s.arg 48) 32).symm
  · exact (rd4_off s.mem (s.arg 24) 32).symm
  · exact (rd4_off s.mem (s.arg 48) 64).symm
  · exact (rd4_off s.mem (s.arg 24) 64).symm

/-! ### Table lookup -/

/-- The same value in all four lanes. -/
def Xmm.rep (c : BitVec 32) : Xmm := ⟨c, c, c, c⟩

/-- All bits of a vector, or none. -/
def keep (c : Prop) [Decidable c] (a : Xmm) : Xmm := if c then a else Xmm.rep 0

/-- The vectors `e 0`, `e 1`, ... added up, all masked out except number `i - 1`. -/
def pick (i : BitVec 32) (e : ℕ → Xmm) : ℕ → Xmm
  | 0 => Xmm.rep 0
  | j + 1 => Xmm.map2 (· ^^^ ·) (pick i e j) (keep (BitVec.ofNat 32 (j + 1) = i) (e j))

theorem map2_xor_zero (a : Xmm) : Xmm.map2 (· ^^^ ·) a (Xmm.rep 0) = a := by
  simp [Xmm.map2, Xmm.rep]

theorem map2_zero_xor (a : Xmm) : Xmm.map2 (· ^^^ ·) (Xmm.rep 0) a = a := by
  simp [Xmm.map2, Xmm.rep]

theorem pick_eq (i : BitVec 32) (e : ℕ → Xmm) (j : ℕ) (hj : j < 2 ^ 32) :
    pick i e j = if 1 ≤ i.toNat ∧ i.toNat ≤ j then e (i.toNat - 1) else Xmm.rep 0 := by
  induction j with
  | zero =>
    rw [if_neg (by omega)]; rfl
  | succ j ih =>
    unfold pick keep
    rw [ih (by omega)]
    have hi : BitVec.ofNat 32 (j + 1) = i ↔ i.toNat = j + 1 := by
      rw [← BitVec.toNat_inj, BitVec.toNat_ofNat, Nat.mod_eq_of_lt hj, eq_comm]
    by_cases h : i.toNat = j + 1
    · rw [if_pos (hi.2 h), if_neg (by omega), if_pos (by omega), map2_zero_xor, h]; rfl
    · rw [if_neg (fun h' => h (hi.1 h')), map2_xor_zero]
      by_cases h1 : 1 ≤ i.toNat ∧ i.toNat ≤ j
      · rw [if_pos h1, if_pos (by omega)]
      · rw [if_neg h1, if_neg (by omega)]

/-- The 16-byte vector at offset `o` from address `a`. -/
def ldv (m : W → W) (a : W) (o : ℕ) : Xmm :=
  Xmm.ofWords (m (a + BitVec.ofNat 64 o)) (m (a + BitVec.ofNat 64 (o + 8)))

/-- Runs a piece of code on a projection of the state. -/
macro "xrun" : tactic => `(tactic| simp only [select_1, select_2, selectBase_1, selectBase_2, exec, step, addc,
  St.flags, St.put, St.setReg, St.get, St.reg, St.getx, St.setx, Opd.next, upd_apply,
  Nat.reduceEqDiff, if_true, if_false])

/-- A lane that is masked. -/
theorem keepLane (c : Prop) [Decidable c] (a : BitVec 32) :
    a &&& (if c then BitVec.allOnes 32 else 0) = if c then a else 0 := by
  split
  · rw [BitVec.and_allOnes]
  · exact BitVec.and_zero

theorem keep_lanes (c : Prop) [Decidable c] (a : Xmm) : keep c a =
    ⟨if c then a.l0 else 0, if c then a.l1 else 0, if c then a.l2 else 0, if c then a.l3 else 0⟩ := by
  unfold keep
  split <;> rfl

/-- The state of p256_sm2Select after `j` rounds of its loop. -/
structure SelInv (m : W → W) (res base : W) (i : BitVec 32) (j : ℕ) (s : St) : Prop where
  mem : s.mem = m
  dx : s.dx = res
  di : s.di = base + BitVec.ofNat 64 (96 * j)
  ax : s.ax = BitVec.ofNat 64 (16 - j)
  x13 : s.x 13 = Xmm.rep (BitVec.ofNat 32 (j + 1))
  x14 : s.x 14 = Xmm.rep i
  x15 : s.x 15 = Xmm.rep 1
  acc : ∀ k < 6, s.x k = pick i (fun e => ldv m base (96 * e + 16 * k)) j

theorem ldv_off (m : W → W) (a : W) (i o : ℕ) :
    ldv m (a + BitVec.ofNat 64 i) o = ldv m a (i + o) := by
  unfold ldv
  rw [addr_assoc, addr_assoc, Nat.add_assoc]

theorem select_step {m : W → W} {res base : W} {i : BitVec 32} {j : ℕ} {s : St}
    (h : SelInv m res base i j s) (hj : j < 16) :
    SelInv m res base i (j + 1) (exec select_2 s) ∧ (exec select_2 s).zf = decide (j + 1 = 16) := by
  have hx : ∀ k < 6, (exec select_2 s).x k = Xmm.map2 (· ^^^ ·) (s.x k)
      (keep (BitVec.ofNat 32 (j + 1) = i) (ldv s.mem s.di (16 * k))) := by
    intro k hk
    match k with
    | 0 | 1 | 2 | 3 | 4 | 5 =>
      simp only [select_2, exec, step, addc, St.flags, St.put, St.setReg, St.get, St.reg, St.getx, St.setx,
        Opd.next, upd_apply, Nat.reduceEqDiff, if_true, if_false, Xmm.map2, h.x13, h.x14, Xmm.rep, keepLane,
        keep_lanes]
      rfl
    | _ + 6 => omega
  have hax : (exec select_2 s).ax = s.ax - 1 := by xrun
  have hzf : (exec select_2 s).zf = decide (s.ax - 1 = 0) := by xrun
  have hax' : s.ax - 1 = BitVec.ofNat 64 (16 - (j + 1)) := by
    rw [h.ax]
    apply BitVec.eq_of_toNat_eq
    simp only [BitVec.toNat_sub, BitVec.toNat_ofNat, BitVec.ofNat_eq_ofNat]
    omega
  refine ⟨⟨?_, ?_, ?_, ?_, ?_, ?_, ?_, ?_⟩, ?_⟩
  · rw [← h.mem]; xrun
  · rw [← h.dx]; xrun
  · have : (exec select_2 s).di = BitVec.ofNat 64 (s.di.toNat + 96 + 0) := by xrun; rfl
    rw [this, h.di, Nat.add_zero, BitVec.ofNat_add, BitVec.ofNat_toNat, BitVec.setWidth_eq, addr_assoc]
    rfl
  · rw [hax, hax']
  · have : (exec select_2 s).x 13 = Xmm.map2 (· + ·) (s.x 13) (s.x 15) := by xrun
    rw [this, h.x13, h.x15]
    simp only [Xmm.map2, Xmm.rep, BitVec.ofNat_eq_ofNat, ← BitVec.ofNat_add]
  · rw [← h.x14]; xrun
  · rw [← h.x15]; xrun
  · intro k hk
    rw [hx k hk, h.acc k hk, h.mem, h.di, ldv_off]
    rfl
  · rw [hzf, hax']
    congr 1
    rw [← BitVec.toNat_inj, BitVec.toNat_ofNat]
    simp only [BitVec.ofNat_eq_ofNat, BitVec.toNat_ofNat, eq_iff_iff]
    omega

theorem select_loop {m : W → W} {res base : W} {i : BitVec 32} (fuel : ℕ) {j : ℕ} {s : St}
    (h : SelInv m res base i j s) (hj : j < 16) (hf : 16 ≤ fuel + j) :
    ∃ s', loopNZ select_2 fuel s = some s' ∧ SelInv m res base i 16 s' := by
  induction fuel generalizing j s with
  | zero => omega
  | succ fuel ih =>
    obtain ⟨h1, h2⟩ := select_step h hj
    unfold loopNZ
    simp only [h2]
    by_cases h16 : j + 1 = 16
    · rw [if_pos (by simpa using h16)]
      exact ⟨_, rfl, by rw [h16] at h1; exact h1⟩
    · rw [if_neg (by simpa using h16)]
      exact ih h1 (by omega) (by omega)

theorem rep_self_xor (a : Xmm) : Xmm.map2 (· ^^^ ·) a a = Xmm.rep 0 := by
  simp [Xmm.map2, Xmm.rep]

theorem select_init (s : St) : SelInv s.mem (s.arg 0) (s.arg 24) ((s.arg 48).extractLsb' 0 32) 0
    (exec select_1 s) where
  mem := rfl
  dx := rfl
  di := by
    rw [show (exec select_1 s).di = s.arg 24 from rfl]; simp
  ax := rfl
  x13 := by
    simp [select_1, exec, step, St.put, St.setReg, St.get, St.reg, St.setx, upd_apply, Xmm.map2, Xmm.rep]
    try decide
  x14 := rfl
  x15 := by
    simp [select_1, exec, step, St.put, St.setReg, St.get, St.reg, St.setx, upd_apply, Xmm.map2, Xmm.rep]
    try decide
  acc := by
    intro k hk
    match k with
    | 0 | 1 | 2 | 3 | 4 | 5 => exact rep_self_xor _
    | _ + 6 => omega

theorem select_out (s : St) : (exec select_3 s).mem = wrList s.mem s.dx
    [(88, (s.x 5).hi), (80, (s.x 5).lo), (72, (s.x 4).hi), (64, (s.x 4).lo), (56, (s.x 3).hi),
      (48, (s.x 3).lo), (40, (s.x 2).hi), (32, (s.x 2).lo), (24, (s.x 1).hi), (16, (s.x 1).lo),
      (8, (s.x 0).hi), (0, (s.x 0).lo)] := by
  simp only [select_3, exec, step, St.put, St.reg, Opd.next, wrList]

theorem rep_zero_lo : (Xmm.rep 0).lo = 0#64 := by decide
theorem rep_zero_hi : (Xmm.rep 0).hi = 0#64 := by decide

/-- The words of a table entry that was picked, as a number. -/
theorem pick_val (m : W → W) (base : W) (i : BitVec 32) (w k n : ℕ) (hn : n < 2 ^ 32) :
    val4 (pick i (fun e => ldv m base (w * e + 16 * k)) n).lo
      (pick i (fun e => ldv m base (w * e + 16 * k)) n).hi
      (pick i (fun e => ldv m base (w * e + 16 * (k + 1))) n).lo
      (pick i (fun e => ldv m base (w * e + 16 * (k + 1))) n).hi =
    if 1 ≤ i.toNat ∧ i.toNat ≤ n then rd4 m (base + BitVec.ofNat 64 (w * (i.toNat - 1) + 16 * k))
    else 0 := by
  rw [pick_eq _ _ _ hn, pick_eq _ _ _ hn]
  split
  · unfold ldv
    rw [ofWords_lo, ofWords_hi, ofWords_lo, ofWords_hi, rd4_off]
    simp only [Nat.add_zero, Nat.mul_add, Nat.add_assoc]
  · rw [rep_zero_lo, rep_zero_hi]; rfl

theorem exec_select (s : St) (fuel : ℕ) (hf : 16 ≤ fuel) : ∃ s', select fuel s = some s' ∧
    Wrote s.mem s'.mem (s.arg 0)
      (if 1 ≤ (s.arg 48).toNat % 2 ^ 32 ∧ (s.arg 48).toNat % 2 ^ 32 ≤ 16 then
        rdJac s.mem (s.arg 24 + BitVec.ofNat 64 (96 * ((s.arg 48).toNat % 2 ^ 32 - 1)))
       else ⟨0, 0, 0⟩) := by
  obtain ⟨s', h1, h2⟩ := select_loop fuel (select_init s) (by decide) hf
  refine ⟨_, by unfold select; rw [h1]; rfl, ?_⟩
  have hi : ((s.arg 48).extractLsb' 0 32).toNat = (s.arg 48).toNat % 2 ^ 32 := by
    rw [BitVec.extractLsb'_toNat, Nat.shiftRight_zero]
  rw [select_out, h2.mem, h2.dx, h2.acc 0 (by decide), h2.acc 1 (by decide), h2.acc 2 (by decide),
    h2.acc 3 (by decide), h2.acc 4 (by decide), h2.acc 5 (by decide), ← hi]
  generalize (s.arg 48).extractLsb' 0 32 = i
  refine wrote_of_list ?_ rfl rfl rfl rfl rfl rfl rfl rfl rfl rfl rfl rfl ?_ ?_ ?_
  · intro e he
    fin_cases he
    exacts [⟨11, by decide, rfl⟩, ⟨10, by decide, rfl⟩, ⟨9, by decide, rfl⟩, ⟨8, by decide, rfl⟩,
      ⟨7, by decide, rfl⟩, ⟨6, by decide, rfl⟩, ⟨5, by decide, rfl⟩, ⟨4, by decide, rfl⟩,
      ⟨3, by decide, rfl⟩, ⟨2, by decide, rfl⟩, ⟨1, by decide, rfl⟩, ⟨0, by decide, rfl⟩]
  · refine (pick_val s.mem (s.arg 24) i 96 0 16 (by decide)).trans ?_
    split <;> rfl
  · refine (pick_val s.mem (s.arg 24) i 96 2 16 (by decide)).trans ?_
    split
    · unfold rdJac
      rw [show (32 : W) = BitVec.ofNat 64 32 from rfl, addr_assoc]
    · rfl
  · refine (pick_val s.mem (s.arg 24) i 96 4 16 (by decide)).trans ?_
    split
    · unfold rdJac
      rw [show (64 : W) = BitVec.ofNat 64 64 from rfl, addr_assoc]
    · rfl

/-! ### p256_sm2SelectBase -/

/-- The state of p256_sm2SelectBase after `j` rounds of its loop, with two entries each. -/
structure BaseInv (m : W → W) (res base : W) (i : BitVec 32) (j : ℕ) (s : St) : Prop where
  mem : s.mem = m
  dx : s.dx = res
  di : s.di = base + BitVec.ofNat 64 (128 * j)
  ax : s.ax = BitVec.ofNat 64 (32 - j)
  x13 : s.x 13 = Xmm.rep (BitVec.ofNat 32 (2 * j + 1))
  x14 : s.x 14 = Xmm.rep i
  x15 : s.x 15 = Xmm.rep 1
  acc : ∀ k < 4, s.x k = pick i (fun e => ldv m base (64 * e + 16 * k)) (2 * j)

theorem base_step {m : W → W} {res base : W} {i : BitVec 32} {j : ℕ} {s : St}
    (h : BaseInv m res base i j s) (hj : j < 32) :
    BaseInv m res base i (j + 1) (exec selectBase_2 s) ∧
      (exec selectBase_2 s).zf = decide (j + 1 = 32) := by
  have h12 : BitVec.ofNat 32 (2 * j + 1) + 1 = BitVec.ofNat 32 (2 * j + 1 + 1) := by
    rw [BitVec.ofNat_add (2 * j + 1) 1]; rfl
  have hx : ∀ k < 4, (exec selectBase_2 s).x k = Xmm.map2 (· ^^^ ·) (Xmm.map2 (· ^^^ ·) (s.x k)
      (keep (BitVec.ofNat 32 (2 * j + 1) = i) (ldv s.mem s.di (16 * k))))
      (keep (BitVec.ofNat 32 (2 * j + 1 + 1) = i) (ldv s.mem s.di (64 + 16 * k))) := by
    intro k hk
    match k with
    | 0 | 1 | 2 | 3 =>
      simp only [selectBase_2, exec, step, addc, St.flags, St.put, St.setReg, St.get, St.reg,
        St.getx, St.setx, Opd.next, upd_apply, Nat.reduceEqDiff, if_true, if_false, Xmm.map2,
        h.x13, h.x14, h.x15, Xmm.rep, h12, keepLane, keep_lanes]
      rfl
    | _ + 4 => omega
  have hax : (exec selectBase_2 s).ax = s.ax - 1 := by xrun
  have hzf : (exec selectBase_2 s).zf = decide (s.ax - 1 = 0) := by xrun
  have hax' : s.ax - 1 = BitVec.ofNat 64 (32 - (j + 1)) := by
    rw [h.ax]
    apply BitVec.eq_of_toNat_eq
    simp only [BitVec.toNat_sub, BitVec.toNat_ofNat, BitVec.ofNat_eq_ofNat]
    omega
  refine ⟨⟨?_, ?_, ?_, ?_, ?_, ?_, ?_, ?_⟩, ?_⟩
  · rw [← h.mem]; xrun
  · rw [← h.dx]; xrun
  · have : (exec selectBase_2 s).di = BitVec.ofNat 64 (s.di.toNat + 128 + 0) := by xrun; rfl
    rw [this, h.di, Nat.add_zero, BitVec.ofNat_add, BitVec.ofNat_toNat, BitVec.setWidth_eq, addr_assoc]
    rfl
  · rw [hax, hax']
  · have : (exec selectBase_2 s).x 13 =
        Xmm.map2 (· + ·) (Xmm.map2 (· + ·) (s.x 13) (s.x 15)) (s.x 15) := by xrun
    rw [this, h.x13, h.x15]
    simp only [Xmm.map2, Xmm.rep, BitVec.ofNat_eq_ofNat, ← BitVec.ofNat_add]
    rfl
  · rw [← h.x14]; xrun
  · rw [← h.x15]; xrun
  · intro k hk
    rw [hx k hk, h.acc k hk, h.mem, h.di, ldv_off, ldv_off,
      show 128 * j + 16 * k = 64 * (2 * j) + 16 * k by omega,
      show 128 * j + (64 + 16 * k) = 64 * (2 * j + 1) + 16 * k by omega]
    rfl
  · rw [hzf, hax']
    congr 1
    rw [← BitVec.toNat_inj, BitVec.toNat_ofNat]
    simp only [BitVec.ofNat_eq_ofNat, BitVec.toNat_ofNat, eq_iff_iff]
    omega

theorem base_loop {m : W → W} {res base : W} {i : BitVec 32} (fuel : ℕ) {j : ℕ} {s : St}
    (h : BaseInv m res base i j s) (hj : j < 32) (hf : 32 ≤ fuel + j) :
    ∃ s', loopNZ selectBase_2 fuel s = some s' ∧ BaseInv m res base i 32 s' := by
  induction fuel generalizing j s with
  | zero => omega
  | succ fuel ih =>
    obtain ⟨h1, h2⟩ := base_step h hj
    unfold loopNZ
    simp only [h2]
    by_cases h16 : j + 1 = 32
    · rw [if_pos (by simpa using h16)]
      exact ⟨_, rfl, by rw [h16] at h1; exact h1⟩
    · rw [if_neg (by simpa using h16)]
      exact ih h1 (by omega) (by omega)

theorem base_init (s : St) : BaseInv s.mem (s.arg 0) (s.arg 24) ((s.arg 48).extractLsb' 0 32) 0
    (exec selectBase_1 s) where
  mem := rfl
  dx := rfl
  di := by
    rw [show (exec selectBase_1 s).di = s.arg 24 from rfl]; simp
  ax := rfl
  x13 := by
    simp [selectBase_1, exec, step, St.put, St.setReg, St.get, St.reg, St.setx, upd_apply, Xmm.map2, Xmm.rep]
    try decide
  x14 := rfl
  x15 := by
    simp [selectBase_1, exec, step, St.put, St.setReg, St.get, St.reg, St.setx, upd_apply, Xmm.map2, Xmm.rep]
    try decide
  acc := by
    intro k hk
    match k with
    | 0 | 1 | 2 | 3 => exact rep_self_xor _
    | _ + 4 => omega

/-- `m'` is `m` with the numbers `x` and `y` in the eight words at address `a`. -/
def Wrote2 (m m' : W → W) (a : W) (x y : ℕ) : Prop :=
  rd4 m' a = x ∧ rd4 m' (a + 32) = y ∧ ∀ b, (∀ i < 8, b ≠ a + BitVec.ofNat 64 (8 * i)) → m' b = m b

theorem wrote2_of_list {m : W → W} {a : W} {l : List (ℕ × W)} {x y : ℕ}
    (hl : ∀ e ∈ l, ∃ i < 8, e.1 = 8 * i)
    {x0 x1 x2 x3 y0 y1 y2 y3 : W}
    (hx0 : l.lookup 0 = some x0) (hx1 : l.lookup 8 = some x1) (hx2 : l.lookup 16 = some x2)
    (hx3 : l.lookup 24 = some x3) (hy0 : l.lookup 32 = some y0) (hy1 : l.lookup 40 = some y1)
    (hy2 : l.lookup 48 = some y2) (hy3 : l.lookup 56 = some y3)
    (hx : val4 x0 x1 x2 x3 = x) (hy : val4 y0 y1 y2 y3 = y) :
    Wrote2 m (wrList m a l) a x y := by
  have hs : ∀ e ∈ l, e.1 < 2 ^ 64 := fun e he => by
    obtain ⟨i, hi, h⟩ := hl e he
    omega
  have h1 := rd4_off0 (wrList m a l) a
  have h2 := rd4_off (wrList m a l) a 32
  rw [wrList_get hs (by decide) hx0, wrList_get hs (by decide) hx1,
    wrList_get hs (by decide) hx2, wrList_get hs (by decide) hx3, hx] at h1
  rw [wrList_get hs (by decide) hy0, wrList_get hs (by decide) hy1,
    wrList_get hs (by decide) hy2, wrList_get hs (by decide) hy3, hy] at h2
  refine ⟨h1, h2, ?_⟩
  intro b hb
  refine wrList_other l fun e he => ?_
  obtain ⟨i, hi, h⟩ := hl e he
  rw [h]
  exact hb i hi

theorem base_out (s : St) : (exec selectBase_3 s).mem = wrList s.mem s.dx
    [(56, (s.x 3).hi), (48, (s.x 3).lo), (40, (s.x 2).hi), (32, (s.x 2).lo), (24, (s.x 1).hi),
      (16, (s.x 1).lo), (8, (s.x 0).hi), (0, (s.x 0).lo)] := by
  simp only [selectBase_3, exec, step, St.put, St.reg, Opd.next, wrList]

theorem exec_selectBase (s : St) (fuel : ℕ) (hf : 32 ≤ fuel) : ∃ s', selectBase fuel s = some s' ∧
    Wrote2 s.mem s'.mem (s.arg 0)
      (if 1 ≤ (s.arg 48).toNat % 2 ^ 32 ∧ (s.arg 48).toNat % 2 ^ 32 ≤ 64 then
        rd4 s.mem (s.arg 24 + BitVec.ofNat 64 (64 * ((s.arg 48).toNat % 2 ^ 32 - 1))) else 0)
      (if 1 ≤ (s.arg 48).toNat % 2 ^ 32 ∧ (s.arg 48).toNat % 2 ^ 32 ≤ 64 then
        rd4 s.mem (s.arg 24 + BitVec.ofNat 64 (64 * ((s.arg 48).toNat % 2 ^ 32 - 1)) + 32)
       else 0) := by
  obtain ⟨s', h1, h2⟩ := base_loop fuel (base_init s) (by decide) hf
  refine ⟨_, by unfold selectBase; rw [h1]; rfl, ?_⟩
  have hi : ((s.arg 48).extractLsb' 0 32).toNat = (s.arg 48).toNat % 2 ^ 32 := by
    rw [BitVec.extractLsb'_toNat, Nat.shiftRight_zero]
  rw [base_out, h2.mem, h2.dx, h2.acc 0 (by decide), h2.acc 1 (by decide), h2.acc 2 (by decide),
    h2.acc 3 (by decide), ← hi]
  generalize (s.arg 48).extractLsb' 0 32 = i
  refine wrote2_of_list ?_ rfl rfl rfl rfl rfl rfl rfl rfl ?_ ?_
  · intro e he
    fin_cases he
    exacts [
      ⟨7, by decide, rfl⟩, ⟨6, by decide, rfl⟩, ⟨5, by decide, rfl⟩, ⟨4, by decide, rfl⟩,
      ⟨3, by decide, rfl⟩, ⟨2, by decide, rfl⟩, ⟨1, by decide, rfl⟩, ⟨0, by decide, rfl⟩]
  · exact pick_val s.mem (s.arg 24) i 64 0 64 (by decide)
  · refine (pick_val s.mem (s.arg 24) i 64 2 64 (by decide)).trans ?_
    split
    · rw [show (32 : W) = BitVec.ofNat 64 32 from rfl, addr_assoc]
    · rfl

/-! ### p256_sm2BigToLittle -/

theorem wordBytes_length (w : W) : (wordBytes w).length = 8 := by simp [wordBytes]

theorem wordBytes_rev (w : W) : natOfBytes (wordBytes w).reverse = w.toNat := by
  have h := w.isLt
  have e : (wordBytes w).reverse = [w.extractLsb' 56 8, w.extractLsb' 48 8, w.extractLsb' 40 8,
    w.extractLsb' 32 8, w.extractLsb' 24 8, w.extractLsb' 16 8, w.extractLsb' 8 8,
    w.extractLsb' 0 8] := rfl
  rw [e]
  simp only [natOfBytes, List.foldl, BitVec.extractLsb'_toNat, Nat.shiftRight_eq_div_pow]
  omega

theorem bswap_bytes (w : W) : wordBytes (bswap w) = (wordBytes w).reverse := by
  have e : (wordBytes w).reverse = [w.extractLsb' 56 8, w.extractLsb' 48 8, w.extractLsb' 40 8,
    w.extractLsb' 32 8, w.extractLsb' 24 8, w.extractLsb' 16 8, w.extractLsb' 8 8,
    w.extractLsb' 0 8] := rfl
  have e' : wordBytes (bswap w) = [(bswap w).extractLsb' 0 8, (bswap w).extractLsb' 8 8,
    (bswap w).extractLsb' 16 8, (bswap w).extractLsb' 24 8, (bswap w).extractLsb' 32 8,
    (bswap w).extractLsb' 40 8, (bswap w).extractLsb' 48 8, (bswap w).extractLsb' 56 8] := rfl
  have key : ∀ i < 8, (bswap w).extractLsb' (8 * i) 8 = w.extractLsb' (56 - 8 * i) 8 := by
    intro i hi
    apply BitVec.eq_of_getLsbD_eq
    intro j hj
    unfold bswap
    simp only [BitVec.getLsbD_extractLsb', BitVec.getLsbD_append]
    interval_cases i <;> interval_cases j <;> simp
  rw [e, e']
  have k0 := key 0 (by decide); have k1 := key 1 (by decide); have k2 := key 2 (by decide)
  have k3 := key 3 (by decide); have k4 := key 4 (by decide); have k5 := key 5 (by decide)
  have k6 := key 6 (by decide); have k7 := key 7 (by decide)
  simp only [Nat.reduceMul, Nat.reduceSub] at k0 k1 k2 k3 k4 k5 k6 k7
  rw [k0, k1, k2, k3, k4, k5, k6, k7]

theorem bigToLittle_out (s : St) : (exec bigToLittle s).mem = wrList s.mem (s.arg 0)
    [(24, bswap (s.mem (s.arg 24 + 0))), (16, bswap (s.mem (s.arg 24 + 8))),
      (8, bswap (s.mem (s.arg 24 + 16))), (0, bswap (s.mem (s.arg 24 + 24)))] := by
  rfl

theorem exec_bigToLittle (s : St) :
    bytes32 (exec bigToLittle s).mem (s.arg 0) = (bytes32 s.mem (s.arg 24)).reverse ∧
    ∀ b, b ≠ s.arg 0 → b ≠ s.arg 0 + 8 → b ≠ s.arg 0 + 16 → b ≠ s.arg 0 + 24 →
      (exec bigToLittle s).mem b = s.mem b := by
  rw [bigToLittle_out]
  have hs : ∀ e ∈ [(24, bswap (s.mem (s.arg 24 + 0))), (16, bswap (s.mem (s.arg 24 + 8))),
      (8, bswap (s.mem (s.arg 24 + 16))), (0, bswap (s.mem (s.arg 24 + 24)))], e.1 < 2 ^ 64 := by
    intro e he
    fin_cases he <;> norm_num
  constructor
  · unfold bytes32
    have g0 := wrList_get (m := s.mem) (a := s.arg 0) hs (o := 0) (by decide) rfl
    have g1 := wrList_get (m := s.mem) (a := s.arg 0) hs (o := 8) (by decide) rfl
    have g2 := wrList_get (m := s.mem) (a := s.arg 0) hs (o := 16) (by decide) rfl
    have g3 := wrList_get (m := s.mem) (a := s.arg 0) hs (o := 24) (by decide) rfl
    rw [show s.arg 0 + BitVec.ofNat 64 0 = s.arg 0 by simp] at g0
    rw [g0, show (8 : W) = BitVec.ofNat 64 8 from rfl, show (16 : W) = BitVec.ofNat 64 16 from rfl,
      show (24 : W) = BitVec.ofNat 64 24 from rfl] at *
    rw [g1, g2, g3, bswap_bytes, bswap_bytes, bswap_bytes, bswap_bytes,
      show s.arg 24 + 0 = s.arg 24 by simp]
    simp only [List.reverse_append, List.append_assoc]
  · intro b h0 h1 h2 h3
    refine wrList_other _ fun e he => ?_
    fin_cases he
    · exact h3
    · exact h2
    · exact h1
    · simpa using h0

theorem bytes32_length (m : W → W) (a : W) : (bytes32 m a).length = 32 := by
  simp [bytes32, wordBytes_length]

theorem bytes32_rev (m : W → W) (a : W) : natOfBytes (bytes32 m a).reverse = num m a := by
  unfold bytes32
  simp only [List.reverse_append, natOfBytes_append, wordBytes_rev, List.length_append,
    List.length_reverse, wordBytes_length]
  unfold num
  ring

end Verif.X64.P256
