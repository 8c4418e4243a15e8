/-
Symbolic execution of the instructions of Model/X64: one lemma per instruction, each introducing
the result as a fresh word together with the linear equation it satisfies.
-/
import Verif.Model.X64
import Mathlib.Tactic.LinearCombination
import Mathlib.Tactic.Linarith

namespace Verif.X64

theorem exec_append (p q : List Instr) (s : St) : exec (p ++ q) s = exec q (exec p s) := by
  induction p generalizing s with
  | nil => rfl
  | cons i p ih => exact ih _

/-- A word as an integer. -/
def z (w : W) : ℤ := (w.toNat : ℤ)

/-- A flag as an integer. -/
def bz (b : Bool) : ℤ := (b.toNat : ℤ)

theorem z_nonneg (w : W) : 0 ≤ z w := Int.natCast_nonneg _
theorem z_lt (w : W) : z w < 18446744073709551616 := by
  have := w.isLt
  unfold z; omega
theorem bz_nonneg (b : Bool) : 0 ≤ bz b := Int.natCast_nonneg _
theorem bz_le (b : Bool) : bz b ≤ 1 := by
  have := b.toNat_le
  unfold bz; omega
@[simp] theorem bz_true : bz true = 1 := rfl
@[simp] theorem bz_false : bz false = 0 := rfl
theorem bz_cases (b : Bool) : bz b = 0 ∨ bz b = 1 := by cases b <;> simp
theorem z_inj {a b : W} (h : z a = z b) : a = b := by
  apply BitVec.eq_of_toNat_eq
  unfold z at h; omega

section
variable {Q : St → Prop} {s : St} {rest : List Instr}

theorem wp_nil (h : Q s) : Q (exec [] s) := h

theorem wp_mov {a d : Opd} (h : Q (exec rest (s.put d (s.get a)))) :
    Q (exec (.mov a d :: rest) s) := h

theorem wp_add {a d : Opd}
    (h : ∀ (r : W) (c : Bool), z r + 18446744073709551616 * bz c = z (s.get d) + z (s.get a) →
      Q (exec rest ((s.flags c (decide (r = 0))).put d r))) :
    Q (exec (.add a d :: rest) s) := by
  have hd := (s.get d).isLt
  have ha := (s.get a).isLt
  have hf := s.cf.toNat_le
  have := h (BitVec.ofNat 64 ((s.get d).toNat + (s.get a).toNat + 0)) (decide (2 ^ 64 ≤ (s.get d).toNat + (s.get a).toNat + 0)) ?_
  · exact this
  · unfold z bz
    rw [BitVec.toNat_ofNat]
    by_cases hc : 2 ^ 64 ≤ (s.get d).toNat + (s.get a).toNat + 0
    · rw [decide_eq_true hc, Bool.toNat_true]; omega
    · rw [decide_eq_false hc, Bool.toNat_false]; omega

theorem wp_adc {a d : Opd}
    (h : ∀ (r : W) (c : Bool), z r + 18446744073709551616 * bz c = z (s.get d) + z (s.get a) + bz s.cf →
      Q (exec rest ((s.flags c (decide (r = 0))).put d r))) :
    Q (exec (.adc a d :: rest) s) := by
  have hd := (s.get d).isLt
  have ha := (s.get a).isLt
  have hf := s.cf.toNat_le
  have := h (BitVec.ofNat 64 ((s.get d).toNat + (s.get a).toNat + s.cf.toNat)) (decide (2 ^ 64 ≤ (s.get d).toNat + (s.get a).toNat + s.cf.toNat)) ?_
  · exact this
  · unfold z bz
    rw [BitVec.toNat_ofNat]
    by_cases hc : 2 ^ 64 ≤ (s.get d).toNat + (s.get a).toNat + s.cf.toNat
    · rw [decide_eq_true hc, Bool.toNat_true]; omega
    · rw [decide_eq_false hc, Bool.toNat_false]; omega

theorem wp_sub {a d : Opd}
    (h : ∀ (r : W) (c : Bool), z r - 18446744073709551616 * bz c = z (s.get d) - z (s.get a) →
      Q (exec rest ((s.flags c (decide (r = 0))).put d r))) :
    Q (exec (.sub a d :: rest) s) := by
  have hd := (s.get d).isLt
  have ha := (s.get a).isLt
  have hf := s.cf.toNat_le
  have := h (BitVec.ofNat 64 ((s.get d).toNat + 2 ^ 65 - ((s.get a).toNat + 0))) (decide ((s.get d).toNat < (s.get a).toNat + 0)) ?_
  · exact this
  · unfold z bz
    rw [BitVec.toNat_ofNat]
    by_cases hc : (s.get d).toNat < (s.get a).toNat + 0
    · rw [decide_eq_true hc, Bool.toNat_true]; omega
    · rw [decide_eq_false hc, Bool.toNat_false]; omega

theorem wp_sbb {a d : Opd}
    (h : ∀ (r : W) (c : Bool), z r - 18446744073709551616 * bz c = z (s.get d) - z (s.get a) - bz s.cf →
      Q (exec rest ((s.flags c (decide (r = 0))).put d r))) :
    Q (exec (.sbb a d :: rest) s) := by
  have hd := (s.get d).isLt
  have ha := (s.get a).isLt
  have hf := s.cf.toNat_le
  have := h (BitVec.ofNat 64 ((s.get d).toNat + 2 ^ 65 - ((s.get a).toNat + s.cf.toNat))) (decide ((s.get d).toNat < (s.get a).toNat + s.cf.toNat)) ?_
  · exact this
  · unfold z bz
    rw [BitVec.toNat_ofNat]
    by_cases hc : (s.get d).toNat < (s.get a).toNat + s.cf.toNat
    · rw [decide_eq_true hc, Bool.toNat_true]; omega
    · rw [decide_eq_false hc, Bool.toNat_false]; omega

theorem put_get_reg (s : St) (b : Reg) : s.put (.r b) (s.get (.r b)) = s := by
  cases b <;> rfl

theorem wp_cmov_cs {a : Opd} {b : Reg}
    (h : Q (exec rest (s.put (.r b) (if s.cf then s.get a else s.get (.r b))))) :
    Q (exec (.cmov .cs a (.r b) :: rest) s) := by
  change Q (exec rest (if s.cf then s.put (.r b) (s.get a) else s))
  cases hc : s.cf
  · rw [hc, if_neg (by decide), put_get_reg] at h
    rwa [if_neg (by decide)]
  · rw [hc, if_pos rfl] at h
    rwa [if_pos rfl]

theorem wp_cmov_eq {a : Opd} {b : Reg}
    (h : Q (exec rest (s.put (.r b) (if s.zf then s.get a else s.get (.r b))))) :
    Q (exec (.cmov .eq a (.r b) :: rest) s) := by
  change Q (exec rest (if s.zf then s.put (.r b) (s.get a) else s))
  cases hc : s.zf
  · rw [hc, if_neg (by decide), put_get_reg] at h
    rwa [if_neg (by decide)]
  · rw [hc, if_pos rfl] at h
    rwa [if_pos rfl]

theorem wp_cmov_ne {a : Opd} {b : Reg}
    (h : Q (exec rest (s.put (.r b) (if s.zf then s.get (.r b) else s.get a)))) :
    Q (exec (.cmov .ne a (.r b) :: rest) s) := by
  change Q (exec rest (if s.zf then s else s.put (.r b) (s.get a)))
  cases hc : s.zf
  · rw [hc, if_neg (by decide)] at h
    rwa [if_neg (by decide)]
  · rw [hc, if_pos rfl, put_get_reg] at h
    rwa [if_pos rfl]

theorem wp_test_self {a : Opd} (h : Q (exec rest (s.flags false (decide (s.get a = 0))))) :
    Q (exec (.test a a :: rest) s) := by
  have h2 : step s (.test a a) = s.flags false (decide (s.get a = 0)) := by
    change s.flags false (decide (s.get a &&& s.get a = 0)) = _
    rw [BitVec.and_self]
  change Q (exec rest (step s (.test a a)))
  rw [h2]; exact h

theorem wp_xor_self {a : Opd}
    (h : Q (exec rest ((s.flags false true).put a 0#64))) :
    Q (exec (.xor a a :: rest) s) := by
  have h2 : (s.flags false (decide (s.get a ^^^ s.get a = 0))).put a (s.get a ^^^ s.get a) =
      (s.flags false true).put a 0#64 := by
    rw [BitVec.xor_self]; rfl
  change Q (exec rest ((s.flags false (decide (s.get a ^^^ s.get a = 0))).put a
    (s.get a ^^^ s.get a)))
  rw [h2]; exact h

theorem wp_mul {a : Opd}
    (h : ∀ (lo hi : W) (c : Bool), z lo + 18446744073709551616 * z hi = z s.ax * z (s.get a) →
      Q (exec rest { s with ax := lo, dx := hi, cf := c })) :
    Q (exec (.mul a :: rest) s) := by
  have hd := s.ax.isLt
  have ha := (s.get a).isLt
  have hm : s.ax.toNat * (s.get a).toNat ≤ (2 ^ 64 - 1) * (2 ^ 64 - 1) :=
    Nat.mul_le_mul (by omega) (by omega)
  refine h (BitVec.ofNat 64 (s.ax.toNat * (s.get a).toNat))
    (BitVec.ofNat 64 (s.ax.toNat * (s.get a).toNat / 2 ^ 64)) _ ?_
  unfold z
  rw [BitVec.toNat_ofNat, BitVec.toNat_ofNat, ← Int.natCast_mul]; omega

theorem wp_shl32 {d : Opd}
    (h : ∀ (r : W) (c zf : Bool), z r = 4294967296 * (z (s.get d) % 4294967296) →
      Q (exec rest ((s.flags c zf).put d r))) :
    Q (exec (.shl 32 d :: rest) s) := by
  have hd := (s.get d).isLt
  refine h (BitVec.ofNat 64 ((s.get d).toNat * 2 ^ 32)) _ _ ?_
  unfold z
  rw [BitVec.toNat_ofNat]
  omega

theorem wp_shr32 {d : Opd}
    (h : ∀ (r : W) (c zf : Bool), z r = z (s.get d) / 4294967296 →
      Q (exec rest ((s.flags c zf).put d r))) :
    Q (exec (.shr 32 d :: rest) s) := by
  have hd := (s.get d).isLt
  refine h (BitVec.ofNat 64 ((s.get d).toNat / 2 ^ 32)) _ _ ?_
  unfold z
  rw [BitVec.toNat_ofNat]
  omega

theorem wp_test_one {d : Opd} (h : Q (exec rest (s.flags false (decide ((s.get d).toNat % 2 = 0))))) :
    Q (exec (.test (.i 1) d :: rest) s) := by
  have h2 : step s (.test (.i 1) d) = s.flags false (decide ((s.get d).toNat % 2 = 0)) := by
    change s.flags false (decide (s.get d &&& 1#64 = 0)) = _
    congr 1
    refine decide_eq_decide.mpr ?_
    constructor
    · intro hh
      have := congrArg BitVec.toNat hh
      rw [BitVec.toNat_and] at this
      have h1 : (1#64).toNat = 2 ^ 1 - 1 := rfl
      rw [h1, Nat.and_two_pow_sub_one_eq_mod] at this
      exact this
    · intro hh
      apply BitVec.eq_of_toNat_eq
      rw [BitVec.toNat_and]
      have h1 : (1#64).toNat = 2 ^ 1 - 1 := rfl
      rw [h1, Nat.and_two_pow_sub_one_eq_mod]
      exact hh
  change Q (exec rest (step s (.test (.i 1) d)))
  rw [h2]; exact h

theorem wp_and {a d : Opd}
    (h : ∀ (r : W) (zf : Bool), r = s.get d &&& s.get a →
      Q (exec rest ((s.flags false zf).put d r))) :
    Q (exec (.and a d :: rest) s) := h _ _ rfl

theorem wp_shrd1 {a d : Opd}
    (h : ∀ (r : W) (c zf : Bool), z r = z (s.get d) / 2 + 9223372036854775808 * (z (s.get a) % 2) →
      Q (exec rest ((s.flags c zf).put d r))) :
    Q (exec (.shrd 1 a d :: rest) s) := by
  have hd := (s.get d).isLt
  have ha := (s.get a).isLt
  refine h (BitVec.ofNat 64 ((s.get d).toNat / 2 ^ 1 + (s.get a).toNat * 2 ^ (64 - 1))) _ _ ?_
  unfold z
  rw [BitVec.toNat_ofNat]
  omega

end

theorem z_zero : z 0#64 = 0 := rfl
theorem z_one : z 1#64 = 1 := rfl
theorem z_max : z 0xFFFFFFFFFFFFFFFF#64 = 18446744073709551615 := rfl
theorem z_const0 : z 0xFFFFFFFF00000000#64 = 18446744069414584320 := rfl
theorem z_const1 : z 0xFFFFFFFEFFFFFFFF#64 = 18446744069414584319 := rfl
theorem z_ordK0 : z 0x327F9E8872350975#64 = 3638801332807469429 := rfl
theorem z_ord0 : z 0x53BBF40939D54123#64 = 6033684446255071523 := rfl
theorem z_ord1 : z 0x7203DF6B21C6052B#64 = 8215655796475036971 := rfl
theorem bz_ff : bz false = 0 := rfl

/-- Put the state in normal form. -/
macro "x64norm" : tactic => `(tactic|
  dsimp only [St.get, St.put, St.reg, St.setReg, St.flags, Glob.word, BitVec.reduceOfNat])

/-- The same for the goal and one equation. -/
macro "x64norm_at " h:ident : tactic => `(tactic|
  dsimp only [St.get, St.put, St.reg, St.setReg, St.flags, Glob.word, BitVec.reduceOfNat, z_zero,
    bz_ff] at $h:ident ⊢)

macro "xmov" : tactic => `(tactic| (refine wp_mov ?_; x64norm))
macro "xadd " r:ident c:ident e:ident : tactic =>
  `(tactic| (refine wp_add ?_; intro $r $c $e; x64norm_at $e))
macro "xadc " r:ident c:ident e:ident : tactic =>
  `(tactic| (refine wp_adc ?_; intro $r $c $e; x64norm_at $e))
macro "xsub " r:ident c:ident e:ident : tactic =>
  `(tactic| (refine wp_sub ?_; intro $r $c $e; x64norm_at $e))
macro "xsbb " r:ident c:ident e:ident : tactic =>
  `(tactic| (refine wp_sbb ?_; intro $r $c $e; x64norm_at $e))
macro "xmul " r:ident q:ident e:ident : tactic =>
  `(tactic| (refine wp_mul ?_; intro $r $q _ $e; x64norm_at $e))
macro "xcs" : tactic => `(tactic| (refine wp_cmov_cs ?_; x64norm))
macro "xeq" : tactic => `(tactic| (refine wp_cmov_eq ?_; x64norm))
macro "xne" : tactic => `(tactic| (refine wp_cmov_ne ?_; x64norm))
macro "xtest" : tactic => `(tactic| (refine wp_test_self ?_; x64norm))
macro "xxor" : tactic => `(tactic| (refine wp_xor_self ?_; x64norm))
macro "xshl " r:ident e:ident : tactic =>
  `(tactic| (refine wp_shl32 ?_; intro $r _ _ $e; x64norm_at $e))
macro "xshr " r:ident e:ident : tactic =>
  `(tactic| (refine wp_shr32 ?_; intro $r _ _ $e; x64norm_at $e))

macro "xshrd " r:ident e:ident : tactic =>
  `(tactic| (refine wp_shrd1 ?_; intro $r _ _ $e; x64norm_at $e))
macro "xand " r:ident e:ident : tactic =>
  `(tactic| (refine wp_and ?_; intro $r _ $e; x64norm_at $e))
macro "xtest1" : tactic => `(tactic| (refine wp_test_one ?_; x64norm))

end Verif.X64
