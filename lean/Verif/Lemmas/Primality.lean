import Mathlib.NumberTheory.LucasPrimality
import Mathlib.FieldTheory.Finite.Basic
/-!
# Pocklington's criterion and a certificate checker evaluated by the kernel
-/
namespace Verif.Primality

theorem pow_dvd_of_order {o m q k : ℕ} (hq : q.Prime) (hm : m ≠ 0) (ho : o ∣ m) (hn : ¬ o ∣ m / q)
    (hk : q ^ k ∣ m) : q ^ k ∣ o := by
  obtain ⟨t, rfl⟩ := ho
  have hcop : Nat.Coprime q t := by
    rw [Nat.Prime.coprime_iff_not_dvd hq]
    rintro ⟨s, rfl⟩
    apply hn
    refine ⟨s, ?_⟩
    rw [show o * (q * s) = (o * s) * q by ring, Nat.mul_div_cancel _ hq.pos]
  exact (Nat.Coprime.pow_left k hcop).dvd_of_dvd_mul_right hk

/-- Pocklington: if a factor `F > √n` of `n - 1` has a witness for each of its primes, `n` is prime. -/
theorem pocklington (n F : ℕ) (hn : 1 < n) (hF : F ∣ n - 1) (hsq : n < F * F)
    (hw : ∀ q, q.Prime → q ∣ F → ∃ a : ℕ, a ^ (n - 1) % n = 1 ∧
      Nat.gcd (a ^ ((n - 1) / q) % n + (n - 1)) n = 1) : n.Prime := by
  have hr : n.minFac.Prime := Nat.minFac_prime (by omega)
  have : Fact n.minFac.Prime := ⟨hr⟩
  have hrn : n.minFac ∣ n := Nat.minFac_dvd n
  have key : F ∣ n.minFac - 1 := by
    rw [Nat.dvd_iff_prime_pow_dvd_dvd]
    intro q k hq hqk
    rcases Nat.eq_zero_or_pos k with rfl | hk
    · simp
    obtain ⟨a, h1, h2⟩ := hw q hq (dvd_trans (dvd_pow_self q (by omega)) hqk)
    have hcast : ∀ e, ((a ^ e % n : ℕ) : ZMod n.minFac) = (a : ZMod n.minFac) ^ e := by
      intro e
      have : a ^ e % n ≡ a ^ e [MOD n.minFac] := (Nat.mod_modEq _ n).of_dvd hrn
      rw [(ZMod.natCast_eq_natCast_iff _ _ _).2 this, Nat.cast_pow]
    have hA : (a : ZMod n.minFac) ^ (n - 1) = 1 := by
      rw [← hcast, h1, Nat.cast_one]
    have hne : (a : ZMod n.minFac) ≠ 0 := by
      intro h
      rw [h, zero_pow (by omega)] at hA
      exact zero_ne_one hA
    have hB : (a : ZMod n.minFac) ^ ((n - 1) / q) ≠ 1 := by
      intro h
      rw [← hcast] at h
      have hz : ((a ^ ((n - 1) / q) % n + (n - 1) : ℕ) : ZMod n.minFac) = 0 := by
        rw [Nat.cast_add, h, ← Nat.cast_one, ← Nat.cast_add, show 1 + (n - 1) = n by omega]
        exact (ZMod.natCast_eq_zero_iff _ _).2 hrn
      rw [ZMod.natCast_eq_zero_iff] at hz
      have := Nat.dvd_gcd hz hrn
      rw [h2] at this
      exact hr.one_lt.ne' (Nat.dvd_one.1 this)
    have ho : q ^ k ∣ orderOf (a : ZMod n.minFac) := by
      refine pow_dvd_of_order hq (by omega) (orderOf_dvd_of_pow_eq_one hA) ?_ (dvd_trans hqk hF)
      intro h
      exact hB (orderOf_dvd_iff_pow_eq_one.1 h)
    exact dvd_trans ho (orderOf_dvd_of_pow_eq_one (ZMod.pow_card_sub_one_eq_one hne))
  have hFr : F ≤ n.minFac - 1 := Nat.le_of_dvd (by have := hr.one_lt; omega) key
  by_contra hnp
  have := Nat.minFac_sq_le_self (by omega) hnp
  have h3 : F * F ≤ n.minFac ^ 2 := by
    rw [pow_two]; exact Nat.mul_le_mul (by omega) (by omega)
  omega

/-- Modular power, by repeated squaring; the match on the squared value makes the kernel evaluate it. -/
def powModAux (m : ℕ) : ℕ → ℕ → ℕ → ℕ → ℕ
  | 0, _, _, acc => acc
  | fuel + 1, x, e, acc =>
    Nat.rec (motive := fun _ => ℕ) acc (fun e' _ =>
      powModAux m fuel (x * x % m) ((e' + 1) / 2) (if (e' + 1) % 2 = 1 then acc * x % m else acc)) e

theorem powModAux_eq (m fuel : ℕ) : ∀ x e acc, e < 2 ^ fuel → acc % m = acc →
    powModAux m fuel x e acc = acc * x ^ e % m := by
  induction fuel with
  | zero =>
    intro x e acc he ha
    have : e = 0 := by simpa using he
    subst this; simp [powModAux, ha]
  | succ fuel ih =>
    intro x e acc he ha
    cases e with
    | zero => simp [powModAux, ha]
    | succ e' =>
      have e1 : powModAux m (fuel + 1) x (e' + 1) acc = powModAux m fuel (x * x % m) ((e' + 1) / 2)
        (if (e' + 1) % 2 = 1 then acc * x % m else acc) := rfl
      rw [e1]
      generalize e' + 1 = e at *
      rw [ih _ _ _ (by rw [pow_succ] at he; omega) (by split <;> simp [ha])]
      have hx : (x * x % m) ^ (e / 2) ≡ x ^ (2 * (e / 2)) [MOD m] := by
        rw [pow_mul, pow_two]
        exact (Nat.mod_modEq _ _).pow _
      split
      · have : e = 2 * (e / 2) + 1 := by omega
        conv_rhs => rw [this, pow_succ, show acc * (x ^ (2 * (e / 2)) * x) = acc * x * x ^ (2 * (e/2)) by ring]
        exact (Nat.mod_modEq _ _).mul hx
      · have : e = 2 * (e / 2) := by omega
        conv_rhs => rw [this]
        exact Nat.ModEq.mul rfl hx

def powMod (a e m : ℕ) : ℕ := powModAux m (e.log2 + 1) (a % m) e (1 % m)

theorem powMod_eq (a e m : ℕ) : powMod a e m = a ^ e % m := by
  unfold powMod
  rw [powModAux_eq m _ _ _ _ Nat.lt_log2_self (by simp)]
  have : 1 % m * (a % m) ^ e ≡ 1 * a ^ e [MOD m] := (Nat.mod_modEq _ _).mul ((Nat.mod_modEq _ _).pow _)
  rw [this]; simp

/-- A certificate entry: prime `q`, exponent `e` and witness `a`. -/
def entryOk (n : ℕ) (t : ℕ × ℕ × ℕ) : Bool :=
  powMod t.2.2 (n - 1) n == 1 && Nat.gcd (powMod t.2.2 ((n - 1) / t.1) n + (n - 1)) n == 1

def certProd : List (ℕ × ℕ × ℕ) → ℕ
  | [] => 1
  | t :: l => t.1 ^ t.2.1 * certProd l

def certOk (n : ℕ) (l : List (ℕ × ℕ × ℕ)) : Bool :=
  decide (1 < n) && decide ((n - 1) % certProd l = 0) && decide (n < certProd l * certProd l) && l.all (entryOk n)

theorem prime_dvd_certProd {q : ℕ} (hq : q.Prime) : ∀ l : List (ℕ × ℕ × ℕ), (∀ t ∈ l, t.1.Prime) →
    q ∣ certProd l → ∃ t ∈ l, t.1 = q := by
  intro l
  induction l with
  | nil => intro _ h; exact absurd (Nat.dvd_one.1 h) hq.one_lt.ne'
  | cons t l ih =>
    intro hp h
    rw [certProd] at h
    rcases (Nat.Prime.dvd_mul hq).1 h with h | h
    · have := Nat.Prime.dvd_of_dvd_pow hq h
      exact ⟨t, by simp, ((Nat.prime_dvd_prime_iff_eq hq (hp t (by simp))).1 this).symm⟩
    · obtain ⟨t', ht', e⟩ := ih (fun t ht => hp t (by simp [ht])) h
      exact ⟨t', by simp [ht'], e⟩

theorem prime_of_cert (n : ℕ) (l : List (ℕ × ℕ × ℕ)) (hl : ∀ t ∈ l, t.1.Prime)
    (h : certOk n l = true) : n.Prime := by
  unfold certOk at h
  simp only [Bool.and_eq_true, decide_eq_true_eq] at h
  obtain ⟨⟨⟨h1, h2⟩, h3⟩, h4⟩ := h
  refine pocklington n (certProd l) h1 (Nat.dvd_of_mod_eq_zero h2) h3 ?_
  intro q hq hd
  obtain ⟨t, ht, rfl⟩ := prime_dvd_certProd hq l hl hd
  have := List.all_eq_true.1 h4 t ht
  unfold entryOk at this
  simp only [Bool.and_eq_true, beq_iff_eq, powMod_eq] at this
  exact ⟨t.2.2, this.1, this.2⟩

end Verif.Primality
