import Mathlib.FieldTheory.Finite.Basic
import Mathlib.Tactic.LinearCombination
/-!
# Cubics without a root modulo a prime, by a kernel-checked certificate

`x³ + a x + b` has no root modulo `p` if `X^p - X` is invertible modulo the cubic. Polynomials modulo the
cubic are triples of naturals.
-/
namespace Verif.Cubic

/-- `c0 + c1 X + c2 X²`. -/
structure T where
  (c0 c1 c2 : ℕ)
  deriving DecidableEq

variable (p a b : ℕ)

/-- Product modulo `X³ + aX + b` and modulo `p`; here `na = p - a`, `nb = p - b`. -/
def T.mul (na nb : ℕ) (u v : T) : T :=
  let d3 := u.c1 * v.c2 + u.c2 * v.c1
  let d4 := u.c2 * v.c2
  ⟨(u.c0 * v.c0 + nb * d3) % p,
   (u.c0 * v.c1 + u.c1 * v.c0 + na * d3 + nb * d4) % p,
   (u.c0 * v.c2 + u.c1 * v.c1 + u.c2 * v.c0 + na * d4) % p⟩

def T.pow (na nb : ℕ) (x : T) : ℕ → ℕ → T
  | 0, _ => ⟨1, 0, 0⟩
  | fuel + 1, e =>
    if e = 0 then ⟨1, 0, 0⟩ else
      let h := T.pow na nb x fuel (e / 2)
      let h2 := T.mul p na nb h h
      if e % 2 = 1 then T.mul p na nb h2 x else h2

/-- Value at `x`. -/
def T.ev {F : Type*} [CommRing F] (x : F) (t : T) : F := t.c0 + t.c1 * x + t.c2 * x ^ 2

theorem ev_mul [Fact p.Prime] (na nb : ℕ) (x : ZMod p) (hx : x ^ 3 = na * x + nb) (u v : T) :
    (T.mul p na nb u v).ev x = u.ev x * v.ev x := by
  unfold T.mul T.ev
  simp only [ZMod.natCast_mod, Nat.cast_add, Nat.cast_mul]
  linear_combination (-(((u.c1 : ZMod p) * v.c2 + u.c2 * v.c1) + (u.c2 : ZMod p) * v.c2 * x)) * hx

theorem ev_pow [Fact p.Prime] (na nb : ℕ) (x : ZMod p) (hx : x ^ 3 = na * x + nb) (t : T) (fuel : ℕ) :
    ∀ e, e < 2 ^ fuel → (T.pow p na nb t fuel e).ev x = t.ev x ^ e := by
  induction fuel with
  | zero =>
    intro e he
    have : e = 0 := by simpa using he
    subst this; simp [T.pow, T.ev]
  | succ fuel ih =>
    intro e he
    rw [T.pow]
    split
    · rename_i h; subst h; simp [T.ev]
    · have hh := ih (e / 2) (by rw [pow_succ] at he; omega)
      simp only
      split
      · rw [ev_mul p na nb x hx, ev_mul p na nb x hx, hh, ← pow_add, ← pow_succ]
        congr 1; omega
      · rw [ev_mul p na nb x hx, hh, ← pow_add]
        congr 1; omega

/-- The certificate check: `w · (X^p - X) = 1` modulo the cubic. -/
def check (fuel : ℕ) (w : T) : Bool :=
  let t := T.pow p (p - a) (p - b) ⟨0, 1, 0⟩ fuel p
  decide (a ≤ p) && decide (b ≤ p) && decide (p < 2 ^ fuel) &&
    decide (T.mul p (p - a) (p - b) ⟨t.c0, t.c1 + (p - 1), t.c2⟩ w = ⟨1, 0, 0⟩)

theorem no_root [Fact p.Prime] (fuel : ℕ) (w : T) (h : check p a b fuel w = true) (x : ZMod p) :
    x ^ 3 + a * x + b ≠ 0 := by
  intro h0
  unfold check at h
  simp only [Bool.and_eq_true, decide_eq_true_eq] at h
  obtain ⟨⟨⟨ha, hb⟩, hf⟩, hm⟩ := h
  have hp1 : 1 ≤ p := (Fact.out : p.Prime).one_le
  have hx : x ^ 3 = ((p - a : ℕ) : ZMod p) * x + ((p - b : ℕ) : ZMod p) := by
    rw [Nat.cast_sub ha, Nat.cast_sub hb]
    simp only [CharP.cast_eq_zero, zero_sub]
    linear_combination h0
  have e1 := ev_pow p _ _ x hx ⟨0, 1, 0⟩ fuel p hf
  have e2 : (T.ev x ⟨0, 1, 0⟩ : ZMod p) = x := by simp [T.ev]
  rw [e2, ZMod.pow_card] at e1
  have e3 := ev_mul p _ _ x hx
    ⟨(T.pow p (p - a) (p - b) ⟨0, 1, 0⟩ fuel p).c0,
     (T.pow p (p - a) (p - b) ⟨0, 1, 0⟩ fuel p).c1 + (p - 1),
     (T.pow p (p - a) (p - b) ⟨0, 1, 0⟩ fuel p).c2⟩ w
  rw [hm] at e3
  have e4 : (T.ev x ⟨(T.pow p (p - a) (p - b) ⟨0, 1, 0⟩ fuel p).c0,
     (T.pow p (p - a) (p - b) ⟨0, 1, 0⟩ fuel p).c1 + (p - 1),
     (T.pow p (p - a) (p - b) ⟨0, 1, 0⟩ fuel p).c2⟩ : ZMod p) = 0 := by
    unfold T.ev at e1 ⊢
    simp only [Nat.cast_add, Nat.cast_sub hp1, CharP.cast_eq_zero, Nat.cast_one]
    linear_combination e1
  rw [e4, zero_mul] at e3
  simp [T.ev] at e3

end Verif.Cubic
