import Verif.Model.EC
import Verif.Spec.Curve
import Verif.Lemmas.Bytes
import Verif.Lemmas.Slice
import Verif.Lemmas.Lucas

namespace Verif.EC
open Verif

/-! ## Modular exponentiation -/

theorem lt_two_pow_bitLen (n : Nat) : n < 2 ^ bitLen n := by
  unfold bitLen
  split
  · omega
  · exact Nat.lt_log2_self

theorem expModAux_eq (m : Int) (fuel : Nat) : ∀ (x : Int) (e : Nat) (acc : Int), e < 2 ^ fuel →
    acc % m = acc → expModAux m fuel x e acc = (acc * x ^ e) % m := by
  induction fuel with
  | zero =>
    intro x e acc he ha
    have : e = 0 := by simpa using he
    subst this
    simp [expModAux, ha]
  | succ fuel ih =>
    intro x e acc he ha
    rw [expModAux]
    by_cases h0 : e = 0
    · rw [if_pos h0, h0]; simp [ha]
    · rw [if_neg h0]
      have hlt : e / 2 < 2 ^ fuel := by rw [pow_succ] at he; omega
      rw [ih _ _ _ hlt (by split <;> simp [ha])]
      have hx : (x * x % m) ^ (e/2) % m = (x ^ (2 * (e/2))) % m := by
        rw [pow_mul, pow_two]
        exact (Int.ModEq.pow _ (Int.mod_modEq (x*x) m))
      by_cases h1 : e % 2 = 1
      · rw [if_pos h1]
        have he2 : e = 2 * (e/2) + 1 := by omega
        conv_rhs => rw [he2, pow_succ]
        rw [Int.mul_emod, hx, Int.emod_emod_of_dvd _ (dvd_refl m), ← Int.mul_emod]
        congr 1; ring
      · rw [if_neg h1]
        have he2 : e = 2 * (e/2) := by omega
        conv_rhs => rw [he2]
        rw [Int.mul_emod, hx, ← Int.mul_emod]

/-- `expMod` is the residue of the power. -/
theorem expMod_eq (x : Int) (e : Nat) (m : Int) : expMod x e m = x ^ e % m := by
  unfold expMod
  rw [expModAux_eq m _ _ _ _ (lt_two_pow_bitLen e) (by simp)]
  have : (1 % m * (x % m) ^ e) ≡ (1 * x ^ e) [ZMOD m] :=
    Int.ModEq.mul (Int.mod_modEq 1 m) (Int.ModEq.pow _ (Int.mod_modEq x m))
  rw [this]; simp

theorem cast_expMod (p : Nat) (x : Int) (e : Nat) : ((expMod x e p : Int) : ZMod p) = (x : ZMod p) ^ e := by
  rw [expMod_eq, ZMod.intCast_mod, Int.cast_pow]

/-! ## Lowest set bit -/

theorem lowestSetBitFrom_spec (k : Nat) (fuel : Nat) : ∀ i, (∀ j, j < i → k.testBit j = false) →
    (∃ j, j < i + fuel ∧ k.testBit j = true) →
    k.testBit (lowestSetBitFrom k fuel i) = true ∧
    ∀ j, j < lowestSetBitFrom k fuel i → k.testBit j = false := by
  induction fuel with
  | zero =>
    intro i hlow ⟨j, hj, hb⟩
    rw [hlow j (by omega)] at hb; cases hb
  | succ fuel ih =>
    intro i hlow hex
    rw [lowestSetBitFrom]
    by_cases h : k.testBit i = true
    · rw [if_pos h]; exact ⟨h, hlow⟩
    · rw [if_neg h]
      apply ih
      · intro j hj
        by_cases hji : j = i
        · subst hji; simpa using h
        · exact hlow j (by omega)
      · obtain ⟨j, hj, hb⟩ := hex
        exact ⟨j, by omega, hb⟩

theorem lowestSetBit_spec (k : Nat) (hk : k ≠ 0) :
    k.testBit (getLowestSetBit k) = true ∧ 2 ^ getLowestSetBit k ∣ k ∧
    getLowestSetBit k + 1 ≤ bitLen k := by
  have hex : ∃ j, j < 0 + bitLen k ∧ k.testBit j = true := by
    refine ⟨k.log2, ?_, Nat.testBit_log2 hk⟩
    unfold bitLen; rw [if_neg hk]; omega
  have h := lowestSetBitFrom_spec k (bitLen k) 0 (by intro j hj; omega) hex
  refine ⟨h.1, ?_, ?_⟩
  · rw [Nat.dvd_iff_mod_eq_zero]
    apply Nat.eq_of_testBit_eq
    intro i
    rw [Nat.testBit_mod_two_pow, Nat.zero_testBit]
    by_cases hi : i < getLowestSetBit k
    · have := h.2 i hi
      simp [this]
    · simp [hi]
  · by_contra hcon
    have : k < 2 ^ getLowestSetBit k := lt_of_lt_of_le (lt_two_pow_bitLen k)
      (Nat.pow_le_pow_right (by omega) (by omega))
    have hb := h.1
    rw [show lowestSetBitFrom k (bitLen k) 0 = getLowestSetBit k from rfl,
      Nat.testBit_lt_two_pow this] at hb
    cases hb

/-! ## The Lucas ladder -/

/-- Ladder invariant: the state represents the prefix `m`. -/
def LInv (p : Nat) (P Q : Int) (m : Nat) (s : Lucas) : Prop :=
  (s.vl : ZMod p) = Lucas.V (P : ZMod p) (Q : ZMod p) m ∧
  (s.vh : ZMod p) = Lucas.V (P : ZMod p) (Q : ZMod p) (m + 1) ∧
  (s.uh : ZMod p) = Lucas.U (P : ZMod p) (Q : ZMod p) (m + 1) ∧
  (s.ql : ZMod p) * (s.qh : ZMod p) = (Q : ZMod p) ^ m

theorem lucasStep_inv (p : Nat) (P Q : Int) (m : Nat) (s : Lucas) (b : Bool)
    (h : LInv p P Q m s) : LInv p P Q (2 * m + b.toNat) (lucasStep p P Q s b) := by
  obtain ⟨h1, h2, h3, h4⟩ := h
  cases b
  · unfold LInv lucasStep
    simp only [Bool.false_eq_true, if_false, Bool.toNat_false, add_zero, ZMod.intCast_mod,
      Int.cast_mul, Int.cast_sub, h1, h2, h3, h4, Int.cast_ofNat]
    refine ⟨?_, ?_, ?_, ?_⟩
    · rw [Lucas.V_two_mul]; ring
    · rw [Lucas.V_two_mul_add_one]
    · rw [Lucas.U_two_mul_add_one]
    · rw [← pow_add]; congr 1; ring
  · unfold LInv lucasStep
    simp only [if_true, Bool.toNat_true, ZMod.intCast_mod,
      Int.cast_mul, Int.cast_sub, h1, h2, h3, h4, Int.cast_ofNat]
    have e : 2 * m + 1 + 1 = 2 * (m + 1) := by ring
    refine ⟨?_, ?_, ?_, ?_⟩
    · rw [Lucas.V_two_mul_add_one]
    · rw [e, Lucas.V_two_mul]; ring
    · rw [e, Lucas.U_two_mul]
    · ring

theorem div_step (k t : Nat) : k / 2 ^ t = 2 * (k / 2 ^ (t + 1)) + (k.testBit t).toNat := by
  rw [pow_succ, ← Nat.div_div_eq_div_mul, Nat.toNat_testBit]
  omega

theorem lucasLoop_inv (p : Nat) (P Q : Int) (k s cnt : Nat) : ∀ st : Lucas,
    LInv p P Q (k / 2 ^ (s + (cnt + 1))) st →
    LInv p P Q (k / 2 ^ (s + 1)) (lucasLoop p P Q k s cnt st) := by
  induction cnt with
  | zero => intro st h; exact h
  | succ cnt ih =>
    intro st h
    rw [lucasLoop]
    apply ih
    have := lucasStep_inv p P Q _ st (k.testBit (s + (cnt + 1))) h
    rwa [show s + (cnt + 1 + 1) = (s + (cnt + 1)) + 1 from rfl, ← div_step] at this

theorem lucasTail_v (p : Nat) (P Q : Int) (n : Nat) : ∀ (m : Nat) (st : Lucas),
    (st.vl : ZMod p) = Lucas.V (P : ZMod p) (Q : ZMod p) m →
    (st.ql : ZMod p) = (Q : ZMod p) ^ m →
    ((lucasTail p n st).vl : ZMod p) = Lucas.V (P : ZMod p) (Q : ZMod p) (2 ^ n * m) := by
  induction n with
  | zero => intro m st h1 _; simpa [lucasTail] using h1
  | succ n ih =>
    intro m st h1 h2
    rw [lucasTail]
    have := ih (2 * m) { st with uh := st.uh * st.vl * p
                                 vl := (st.vl * st.vl - st.ql * 2) % p
                                 ql := (st.ql * st.ql) % p }
      (by simp only [ZMod.intCast_mod, Int.cast_mul, Int.cast_sub, h1, h2, Int.cast_ofNat]
          rw [Lucas.V_two_mul]; ring)
      (by simp only [ZMod.intCast_mod, Int.cast_mul, h2]; rw [← pow_add]; congr 1; ring)
    rw [this, pow_succ]; congr 1; ring

theorem lucasTail_range (p : Nat) (hp : 0 < p) (n : Nat) : ∀ st : Lucas,
    0 ≤ st.vl → st.vl < p → 0 ≤ (lucasTail p n st).vl ∧ (lucasTail p n st).vl < p := by
  induction n with
  | zero => intro st h1 h2; exact ⟨h1, h2⟩
  | succ n ih =>
    intro st _ _
    rw [lucasTail]
    exact ih _ (Int.emod_nonneg _ (by omega)) (Int.emod_lt_of_pos _ (by omega))

/-- The state just before the trailing loop (lines 97-113). -/
theorem lucas_mid (p : Nat) (P Q : Int) (k : Nat) (hk : k ≠ 0) :
    ∀ st, st = lucasLoop p P Q k (getLowestSetBit k) (bitLen k - (getLowestSetBit k + 1))
      { uh := 1, vl := 2, ql := 1, qh := 1, vh := P } →
    LInv p P Q (k / 2 ^ (getLowestSetBit k + 1)) st := by
  rintro st rfl
  apply lucasLoop_inv
  have hs := (lowestSetBit_spec k hk).2.2
  have : getLowestSetBit k + (bitLen k - (getLowestSetBit k + 1) + 1) = bitLen k := by omega
  rw [this, Nat.div_eq_of_lt (lt_two_pow_bitLen k)]
  refine ⟨by simp [Lucas.V], by simp [Lucas.V], by simp [Lucas.U], by simp⟩

/-- `fastLucasSequence` returns `V_k` modulo `p`, reduced, for every `k > 0`. -/
theorem fastLucas_V (p : Nat) (hp : 0 < p) (P Q : Int) (k : Nat) (hk : k ≠ 0) :
    (((fastLucasSequence p P Q k).2 : Int) : ZMod p) = Lucas.V (P : ZMod p) (Q : ZMod p) k ∧
    0 ≤ (fastLucasSequence p P Q k).2 ∧ (fastLucasSequence p P Q k).2 < p := by
  unfold fastLucasSequence
  simp only
  have hmid := lucas_mid p P Q k hk _ rfl
  revert hmid
  generalize lucasLoop (↑p) P Q k (getLowestSetBit k) (bitLen k - (getLowestSetBit k + 1))
    { uh := 1, vl := 2, ql := 1, qh := 1, vh := P } = st
  rintro ⟨h1, h2, h3, h4⟩
  obtain ⟨hb, ⟨q, hq⟩, hle⟩ := lowestSetBit_spec k hk
  generalize hm : k / 2 ^ (getLowestSetBit k + 1) = m at *
  have hpos : 0 < 2 ^ getLowestSetBit k := Nat.pow_pos (by omega)
  have hkd : k / 2 ^ getLowestSetBit k = 2 * m + 1 := by
    rw [div_step, hb, hm]; rfl
  have hqv : q = 2 * m + 1 := by
    rw [← hkd]
    exact (Nat.div_eq_of_eq_mul_right hpos hq).symm
  constructor
  · rw [lucasTail_v p P Q (getLowestSetBit k) (2 * m + 1)]
    · rw [← hqv, ← hq]
    · simp only [ZMod.intCast_mod, Int.cast_mul, Int.cast_sub, h1, h2, h4]
      rw [Lucas.V_two_mul_add_one]
    · simp only [ZMod.intCast_mod, Int.cast_mul, h4]
      ring
  · apply lucasTail_range p hp
    · exact Int.emod_nonneg _ (by omega)
    · exact Int.emod_lt_of_pos _ (by omega)

/-- For odd `k` the trailing loop does not run and the first result is `U_k` modulo `p`. -/
theorem fastLucas_U_odd (p : Nat) (hp : 0 < p) (P Q : Int) (k : Nat) (hodd : k % 2 = 1) :
    (((fastLucasSequence p P Q k).1 : Int) : ZMod p) = Lucas.U (P : ZMod p) (Q : ZMod p) k ∧
    0 ≤ (fastLucasSequence p P Q k).1 ∧ (fastLucasSequence p P Q k).1 < p := by
  have hk : k ≠ 0 := by omega
  unfold fastLucasSequence
  simp only
  have hmid := lucas_mid p P Q k hk _ rfl
  revert hmid
  generalize lucasLoop (↑p) P Q k (getLowestSetBit k) (bitLen k - (getLowestSetBit k + 1))
    { uh := 1, vl := 2, ql := 1, qh := 1, vh := P } = st
  rintro ⟨h1, h2, h3, h4⟩
  obtain ⟨hb, hdvd, hle⟩ := lowestSetBit_spec k hk
  have hs : getLowestSetBit k = 0 := by
    by_contra h
    have : 2 ∣ k := dvd_trans (dvd_pow_self 2 h) hdvd
    omega
  rw [hs] at h1 h2 h3 h4 hb ⊢
  simp only [lucasTail]
  generalize hm : k / 2 ^ (0 + 1) = m at *
  have hkd : k = 2 * m + 1 := by
    have := div_step k 0
    rw [pow_zero, Nat.div_one, hb, hm] at this
    simpa using this
  refine ⟨?_, Int.emod_nonneg _ (by omega), Int.emod_lt_of_pos _ (by omega)⟩
  simp only [ZMod.intCast_mod, Int.cast_mul, Int.cast_sub, h1, h3, h4]
  rw [hkd, Lucas.U_two_mul_add_one]

/-! ## Square roots -/

section sqrt
variable (p : Nat) [hp : Fact p.Prime]

theorem int_eq_of_cast {a b : Int} (h : (a : ZMod p) = (b : ZMod p)) (ha0 : 0 ≤ a) (hap : a < p)
    (hb0 : 0 ≤ b) (hbp : b < p) : a = b := by
  rw [ZMod.intCast_eq_intCast_iff] at h
  have := h
  unfold Int.ModEq at this
  rwa [Int.emod_eq_of_lt ha0 hap, Int.emod_eq_of_lt hb0 hbp] at this

theorem testBit_one (n : Nat) : n.testBit 1 = true ↔ n % 4 = 2 ∨ n % 4 = 3 := by
  rw [Nat.testBit_eq_decide_div_mod_eq]
  simp
  omega

theorem expMod_range (x : Int) (e : Nat) : 0 ≤ expMod x e p ∧ expMod x e p < p := by
  have := hp.out.pos
  rw [expMod_eq]
  exact ⟨Int.emod_nonneg _ (by omega), Int.emod_lt_of_pos _ (by omega)⟩

theorem isSquare_iff_euler (h2 : p ≠ 2) (a : ZMod p) (ha : a ≠ 0) :
    IsSquare a ↔ a ^ ((p - 1) / 2) = 1 := by
  have hodd : p % 2 = 1 := hp.out.eq_two_or_odd.resolve_left h2
  have := ZMod.euler_criterion p ha
  rw [this]
  have : p / 2 = (p - 1) / 2 := by omega
  rw [this]

theorem drawOk_iff (hodd : p % 2 = 1) (y : Int) (lp : Nat) :
    drawOk p ((y * 4) % p) lp = true ↔
      lp < p ∧ ((lp : ZMod p) ^ 2 - 4 * (y : ZMod p)) ^ ((p - 1) / 2) = -1 := by
  unfold drawOk
  rw [Bool.and_eq_true, decide_eq_true_iff, decide_eq_true_iff]
  have hpos := hp.out.pos
  have h2 := hp.out.two_le
  have hr := expMod_range p ((lp : Int) * lp - (y * 4) % p) ((p - 1) / 2)
  have hc : ((expMod ((lp : Int) * lp - (y * 4) % p) ((p - 1) / 2) p : Int) : ZMod p)
      = ((lp : ZMod p) ^ 2 - 4 * (y : ZMod p)) ^ ((p - 1) / 2) := by
    rw [cast_expMod, Int.cast_sub, ZMod.intCast_mod, Int.cast_mul, Int.cast_mul]
    congr 1; push_cast; ring
  have hm1 : (((p : Int) - 1 : Int) : ZMod p) = -1 := by push_cast; simp
  constructor
  · rintro ⟨h, he⟩
    refine ⟨h, ?_⟩
    rw [← hc, he, hm1]
  · rintro ⟨h, he⟩
    refine ⟨h, int_eq_of_cast p ?_ hr.1 hr.2 (by omega) (by omega)⟩
    rw [hc, he, hm1]

/-- A root in the form `curveSqrt` returns it. -/
def IsRoot (y r : Int) : Prop := 0 ≤ r ∧ r < p ∧ (r * r) % p = y

theorem lucasSearch_spec (h4 : p % 4 = 1) (y : Int) (hy0 : 0 ≤ y) (hyp : y < p)
    (hQ : (y : ZMod p) ^ ((p - 1) / 2) = 1) (draws : List Nat) :
    (lucasSearch p y ((y * 4) % p) ((p - 1) / 4 * 2 + 1) draws = none ∧
      ∀ d ∈ draws, drawOk p ((y * 4) % p) d = false) ∨
    ∃ r, lucasSearch p y ((y * 4) % p) ((p - 1) / 4 * 2 + 1) draws = some (some r) ∧ IsRoot p y r := by
  have hpos := hp.out.pos
  have hodd : p % 2 = 1 := by omega
  induction draws with
  | nil => left; exact ⟨rfl, by simp⟩
  | cons lp rest ih =>
    rw [lucasSearch]
    by_cases hd : drawOk p ((y * 4) % p) lp = true
    · right
      rw [if_pos hd]
      obtain ⟨_, hD⟩ := (drawOk_iff p hodd y lp).1 hd
      have hk : 2 * ((p - 1) / 4 * 2 + 1) = p + 1 := by omega
      have hV := Lucas.V_half_sq p hodd (lp : ZMod p) (y : ZMod p) hD hQ _ hk
      obtain ⟨hc, h0, hlt⟩ := fastLucas_V p hpos (lp : Int) y ((p - 1) / 4 * 2 + 1) (by omega)
      generalize fastLucasSequence (↑p) (↑lp) y ((p - 1) / 4 * 2 + 1) = uv at *
      obtain ⟨u, v⟩ := uv
      simp only at hc h0 hlt ⊢
      rw [Int.cast_natCast] at hc
      rw [← hc] at hV
      have hsq : (v * v) % p = (y * 4) % p := by
        apply int_eq_of_cast p _ (Int.emod_nonneg _ (by omega)) (Int.emod_lt_of_pos _ (by omega))
          (Int.emod_nonneg _ (by omega)) (Int.emod_lt_of_pos _ (by omega))
        rw [ZMod.intCast_mod, ZMod.intCast_mod, Int.cast_mul, hV]; push_cast; ring
      rw [if_pos hsq]
      refine ⟨_, rfl, ?_⟩
      -- the half
      have hhalf : ∀ w : Int, w % 2 = 0 → (w : ZMod p) = (v : ZMod p) → 0 ≤ w → w < 2 * p →
          IsRoot p y (w / 2) := by
        intro w hw hwc hw0 hwp
        refine ⟨by omega, by omega, ?_⟩
        have hw2 : w = 2 * (w / 2) := by omega
        apply int_eq_of_cast p _ (Int.emod_nonneg _ (by omega)) (Int.emod_lt_of_pos _ (by omega))
          hy0 hyp
        rw [ZMod.intCast_mod, Int.cast_mul]
        have h2ne : (4 : ZMod p) ≠ 0 := by
          intro h
          have h' : ((4 : ℕ) : ZMod p) = 0 := by exact_mod_cast h
          rw [ZMod.natCast_eq_zero_iff] at h'
          have := Nat.le_of_dvd (by norm_num) h'
          have h2 := hp.out.two_le
          interval_cases p <;> omega
        apply mul_left_cancel₀ h2ne
        rw [← hV, ← hwc]
        conv_rhs => rw [hw2]
        push_cast; ring
      by_cases hv : v % 2 = 1
      · rw [if_pos hv]
        apply hhalf _ (by omega) (by push_cast; simp) (by omega) (by omega)
      · rw [if_neg hv]
        exact hhalf _ (by omega) rfl h0 (by omega)
    · have hd' : drawOk p ((y * 4) % p) lp = false := by simpa using hd
      rw [if_neg hd]
      rcases ih with ⟨h1, h2⟩ | h
      · left
        refine ⟨h1, ?_⟩
        intro d hmem
        rcases List.mem_cons.1 hmem with rfl | h
        · exact hd'
        · exact h2 d h
      · right; exact h

theorem cast_ne_zero_of_pos {y : Int} (h0 : 0 < y) (hyp : y < p) : (y : ZMod p) ≠ 0 := by
  intro h
  have := int_eq_of_cast p (a := y) (b := 0) (by simpa using h) (by omega) hyp le_rfl
    (by have := hp.out.pos; omega)
  omega

theorem sqrt3_spec (h4 : p % 4 = 3) (y : Int) (hy0 : 0 ≤ y) (hyp : y < p) :
    (IsSquare (y : ZMod p) → ∃ r, sqrt3mod4 y p = some r ∧ IsRoot p y r) ∧
    (∀ r, sqrt3mod4 y p = some r → IsRoot p y r) := by
  have hpos := hp.out.pos
  have hr := expMod_range p y (p / 4 + 1)
  have sound : ∀ r, sqrt3mod4 y p = some r → IsRoot p y r := by
    intro r h
    unfold sqrt3mod4 at h
    simp only at h
    split at h
    · rename_i he
      have := Option.some.inj h
      subst this
      refine ⟨hr.1, hr.2, ?_⟩
      rw [expMod_eq _ 2, pow_two] at he
      exact he
    · cases h
  refine ⟨?_, sound⟩
  intro hsq
  have hcond : expMod (expMod y (p / 4 + 1) p) 2 p = y := by
    have hr2 := expMod_range p (expMod y (p / 4 + 1) p) 2
    apply int_eq_of_cast p _ hr2.1 hr2.2 hy0 hyp
    rw [cast_expMod, cast_expMod]
    by_cases hz : (y : ZMod p) = 0
    · rw [hz]; rw [zero_pow (by omega), zero_pow (by omega)]
    · have he := (isSquare_iff_euler p (by omega) _ hz).1 hsq
      rw [← pow_mul]
      have : (p / 4 + 1) * 2 = (p - 1) / 2 + 1 := by omega
      rw [this, pow_succ, he, one_mul]
  refine ⟨expMod y (p / 4 + 1) p, ?_, ?_⟩
  · unfold sqrt3mod4; simp only; rw [if_pos hcond]
  · apply sound; unfold sqrt3mod4; simp only; rw [if_pos hcond]

/-- Everything about `curveSqrt`. -/
theorem curveSqrt_spec (hodd : p % 2 = 1) (y : Int) (hy0 : 0 ≤ y) (hyp : y < p) (draws : List Nat) :
    (∀ r, curveSqrt y p draws = some (some r) → IsRoot p y r) ∧
    (curveSqrt y p draws = some none → ¬ IsSquare (y : ZMod p) ∨ (y = 0 ∧ p % 4 = 1)) ∧
    (curveSqrt y p draws = none → p % 4 = 1 ∧ ∀ d ∈ draws, drawOk p ((y * 4) % p) d = false) := by
  have hpos := hp.out.pos
  unfold curveSqrt
  by_cases hb : p.testBit 1 = true
  · rw [if_pos hb]
    have h3 : p % 4 = 3 := by rw [testBit_one] at hb; omega
    obtain ⟨h1, h2⟩ := sqrt3_spec p h3 y hy0 hyp
    refine ⟨fun r h => h2 r (Option.some.inj h), ?_, by simp⟩
    intro h
    left
    intro hsq
    obtain ⟨r, hr, _⟩ := h1 hsq
    rw [hr] at h; cases h
  · rw [if_neg hb]
    have h1 : p % 4 = 1 := by rw [testBit_one] at hb; omega
    have hr := expMod_range p y ((p - 1) / 2)
    by_cases he : expMod y ((p - 1) / 2) p ≠ 1
    · rw [if_pos he]
      refine ⟨by simp, ?_, by simp⟩
      intro _
      by_cases hz : y = 0
      · right; exact ⟨hz, h1⟩
      · left
        intro hsq
        have hne := cast_ne_zero_of_pos p (y := y) (by omega) hyp
        have := (isSquare_iff_euler p (by omega) _ hne).1 hsq
        apply he
        apply int_eq_of_cast p _ hr.1 hr.2 (by omega) (by have := hp.out.one_lt; omega)
        rw [cast_expMod, this]; simp
    · rw [if_neg he]
      have he' : expMod y ((p - 1) / 2) p = 1 := by simpa using he
      have hQ : (y : ZMod p) ^ ((p - 1) / 2) = 1 := by
        rw [← cast_expMod, he']; simp
      rcases lucasSearch_spec p h1 y hy0 hyp hQ draws with ⟨hn, hd⟩ | ⟨r, hr, hroot⟩
      · simp only [hn]
        refine ⟨by simp, by simp, fun _ => ⟨h1, hd⟩⟩
      · simp only [hr]
        refine ⟨?_, by simp, by simp⟩
        intro r' h
        have := Option.some.inj (Option.some.inj h)
        subst this; exact hroot

end sqrt

/-! ## Curve equation -/

/-- The coefficient the decompression code uses. -/
def coefA (k1name : String) (c : Curve) : Int := if c.name ≠ k1name then -3 else 0

theorem ySquareOf_eq (k1name : String) (c : Curve) (x : Nat) :
    ySquareOf k1name c x = ((x : Int) ^ 3 + coefA k1name c * x + c.B) % c.P := by
  unfold ySquareOf coefA
  simp only [expMod_eq]
  by_cases h : c.name ≠ k1name
  · simp only [if_pos h]
    rw [Int.emod_add_emod]
    refine Int.ModEq.add_right _ ?_
    have h1 : ((x : Int) ^ 2 % c.P + -3) % c.P ≡ (x : Int) ^ 2 + -3 [ZMOD c.P] :=
      (Int.mod_modEq _ _).trans (Int.ModEq.add_right _ (Int.mod_modEq _ _))
    refine (Int.ModEq.mul_right _ h1).trans ?_
    rw [show ((x : Int) ^ 2 + -3) * x = (x : Int) ^ 3 + -3 * x by ring]
  · simp only [if_neg h]
    rw [Int.emod_add_emod]
    refine Int.ModEq.add_right _ ?_
    refine (Int.ModEq.mul_right _ (Int.mod_modEq _ _)).trans ?_
    rw [show (x : Int) ^ 2 * x = (x : Int) ^ 3 + 0 * x by ring]

theorem onCurve_iff (k1name : String) (c : Curve) (x y : Nat) :
    Spec.OnCurve c (coefA k1name c) x y ↔ ((y : Int) * y) % c.P = ySquareOf k1name c x := by
  unfold Spec.OnCurve
  rw [ySquareOf_eq, ← pow_two]
  exact Int.emod_eq_emod_iff_emod_sub_eq_zero.symm

theorem ySquareOf_range (k1name : String) (c : Curve) (hP : 0 < c.P) (x : Nat) :
    0 ≤ ySquareOf k1name c x ∧ ySquareOf k1name c x < c.P := by
  rw [ySquareOf_eq]
  exact ⟨Int.emod_nonneg _ (by omega), Int.emod_lt_of_pos _ (by omega)⟩

/-- Two roots of the same square are equal or opposite. -/
theorem root_unique (p : Nat) [hp : Fact p.Prime] {y r : Nat} (hy : y < p) (hr : r < p)
    (h : ((y : Int) * y) % p = ((r : Int) * r) % p) : y = r ∨ y + r = p ∨ (y = 0 ∧ r = 0) := by
  have hc : ((y : ZMod p)) * y = (r : ZMod p) * r := by
    have : (((y : Int) * y % p : Int) : ZMod p) = (((r : Int) * r % p : Int) : ZMod p) := by rw [h]
    rw [ZMod.intCast_mod, ZMod.intCast_mod] at this
    exact_mod_cast this
  rcases mul_self_eq_mul_self_iff.1 hc with h1 | h1
  · left
    have := int_eq_of_cast p (a := y) (b := r) (by exact_mod_cast h1) (by omega) (by omega) (by omega)
      (by omega)
    omega
  · have h2 : (((y + r : Nat)) : ZMod p) = 0 := by
      rw [Nat.cast_add, h1]; simp
    rw [ZMod.natCast_eq_zero_iff] at h2
    obtain ⟨q, hq⟩ := h2
    have hq2 : q < 2 := by
      by_contra hcon
      have : p * 2 ≤ p * q := Nat.mul_le_mul_left _ (by omega)
      omega
    interval_cases q
    · right; right; omega
    · right; left; omega

/-! ## Decompression -/

theorem isEven_iff (n : Nat) : isEven n = true ↔ n % 2 = 0 := by
  unfold isEven
  rw [Nat.testBit_zero]
  simp

/-- Result of `deCompress` when a root has been found. -/
theorem deCompress_some (k1name : String) (t : Nat) (xb : Bytes) (c : Curve) (draws : List Nat) (r : Int)
    (h : curveSqrt (ySquareOf k1name c (natOfBytes xb)) c.P draws = some (some r)) :
    deCompress k1name t xb c draws = some (.ok (ECPub.mk c (natOfBytes xb)
      (if ((isEven r.toNat && decide (t ≠ 0)) || (!isEven r.toNat && decide (t ≠ 1))) = true
        then c.P - r.toNat else r.toNat))) := by
  unfold deCompress
  simp only [h, Option.map_some]

theorem deCompress_none (k1name : String) (t : Nat) (xb : Bytes) (c : Curve) (draws : List Nat)
    (h : curveSqrt (ySquareOf k1name c (natOfBytes xb)) c.P draws = some none) :
    deCompress k1name t xb c draws = some (.err "Invalid point compression") := by
  unfold deCompress
  simp only [h, Option.map_some]

theorem deCompress_run (k1name : String) (t : Nat) (xb : Bytes) (c : Curve) (draws : List Nat)
    (h : curveSqrt (ySquareOf k1name c (natOfBytes xb)) c.P draws = none) :
    deCompress k1name t xb c draws = none := by
  unfold deCompress
  simp only [h, Option.map_none]

/-- What a finished decompression looks like. -/
theorem deCompress_ok (k1name : String) (t : Nat) (ht : t < 2) (xb : Bytes) (c : Curve)
    (hp : c.P.Prime) (hodd : c.P % 2 = 1) (draws : List Nat) (pub : ECPub)
    (h : deCompress k1name t xb c draws = some (.ok pub)) :
    pub.curve = c ∧ pub.x = natOfBytes xb ∧ pub.y ≤ c.P ∧ pub.y % 2 = t ∧
    ((pub.y : Int) * pub.y) % c.P = ySquareOf k1name c pub.x := by
  have : Fact c.P.Prime := ⟨hp⟩
  have hpos := hp.pos
  have hr := ySquareOf_range k1name c hpos (natOfBytes xb)
  cases hs : curveSqrt (ySquareOf k1name c (natOfBytes xb)) c.P draws with
  | none => rw [deCompress_run _ _ _ _ _ hs] at h; cases h
  | some o =>
    cases o with
    | none => rw [deCompress_none _ _ _ _ _ hs] at h; cases h
    | some r =>
      rw [deCompress_some _ _ _ _ _ _ hs] at h
      have hroot := (curveSqrt_spec c.P hodd _ hr.1 hr.2 draws).1 r hs
      obtain ⟨h0, hlt, hsq⟩ := hroot
      obtain ⟨n, rfl⟩ : ∃ n : Nat, r = n := ⟨r.toNat, by omega⟩
      simp only [Option.some.injEq, Res.ok.injEq] at h
      subst h
      simp only [Int.toNat_natCast]
      have hn : n < c.P := by omega
      by_cases he : isEven n = true
      · have he2 := (isEven_iff n).1 he
        rw [he]
        simp only [Bool.true_and, Bool.not_true, Bool.false_and, Bool.or_false, decide_eq_true_eq]
        by_cases ht0 : t ≠ 0
        · rw [if_pos ht0]
          refine ⟨trivial, trivial, by omega, by omega, ?_⟩
          rw [← hsq, Nat.cast_sub hn.le]
          apply Int.emod_eq_emod_iff_emod_sub_eq_zero.2
          rw [show ((c.P : Int) - n) * (c.P - n) - n * n = c.P * (c.P - 2 * n) by ring]
          simp
        · rw [if_neg ht0]
          exact ⟨trivial, trivial, by omega, by omega, hsq⟩
      · have he2 : n % 2 = 1 := by
          have := mt (isEven_iff n).2 he; omega
        have hef : isEven n = false := by simpa using he
        rw [hef]
        simp only [Bool.false_and, Bool.not_false, Bool.true_and, Bool.false_or, decide_eq_true_eq]
        by_cases ht1 : t ≠ 1
        · rw [if_pos ht1]
          refine ⟨trivial, trivial, by omega, by omega, ?_⟩
          rw [← hsq, Nat.cast_sub hn.le]
          apply Int.emod_eq_emod_iff_emod_sub_eq_zero.2
          rw [show ((c.P : Int) - n) * (c.P - n) - n * n = c.P * (c.P - 2 * n) by ring]
          simp
        · rw [if_neg ht1]
          exact ⟨trivial, trivial, by omega, by omega, hsq⟩

/-! ## Encoding -/

theorem splice_zeros_right (a n k : Nat) (x : Bytes) (hx : x.length = k) (hn : n = a + k) (m : Nat) :
    splice (zeros (n + m)) a x = zeros a ++ x ++ zeros m := by
  subst hx hn
  unfold splice zeros
  rw [List.take_replicate, List.drop_replicate]
  congr 2
  · rw [show min a (a + x.length + m) = a by omega]
  · congr 1; omega

theorem encode_compressed_eq (pub : ECPub) (hx : pub.x < 256 ^ pub.curve.byteSize) :
    encodePublicKey (some pub) true =
      .ok (Spec.sec1Compressed pub.curve.byteSize pub.x pub.y) := by
  have hl : (bytesOfNat pub.x).length ≤ pub.curve.byteSize := by
    rw [bytesOfNat_length]; exact byteLen_le_iff.2 hx
  unfold encodePublicKey
  simp only
  generalize hL : pub.curve.byteSize = L at *
  rw [if_neg (by omega)]
  have e : L * 2 + 1 = (L + 1) + L := by ring
  rw [e, splice_zeros_right (L + 1 - (bytesOfNat pub.x).length) (L + 1) _ (bytesOfNat pub.x) rfl
    (by omega) L]
  rw [show L + 1 - (bytesOfNat pub.x).length = (L - (bytesOfNat pub.x).length) + 1 by omega]
  have hz : zeros (L - (bytesOfNat pub.x).length + 1) = 0 :: zeros (L - (bytesOfNat pub.x).length) := rfl
  rw [hz]
  simp only [if_true, List.cons_append]
  rw [bytesOfNat_length, zeros_append_bytesOfNat (byteLen_le_iff.2 hx)]
  have hbl : (beFix L pub.x).length = L := beFix_length _ _
  simp only [splice, List.take_zero, List.nil_append, List.length_cons, zeros, Nat.zero_add,
    List.length_nil]
  rw [List.drop_succ_cons, List.drop_zero]
  congr 1
  rw [List.cons_append, List.nil_append, List.take_succ_cons, List.take_left' hbl]
  unfold Spec.sec1Compressed
  congr 1
  rw [Nat.testBit_zero]
  by_cases h : pub.y % 2 = 1 <;> simp [h]

theorem encode_uncompressed_eq (pub : ECPub) (hx : pub.x < 256 ^ pub.curve.byteSize)
    (hy : pub.y < 256 ^ pub.curve.byteSize) :
    encodePublicKey (some pub) false =
      .ok (Spec.sec1Uncompressed pub.curve.byteSize pub.x pub.y) := by
  have hl : (bytesOfNat pub.x).length ≤ pub.curve.byteSize := by
    rw [bytesOfNat_length]; exact byteLen_le_iff.2 hx
  have hl2 : (bytesOfNat pub.y).length ≤ pub.curve.byteSize := by
    rw [bytesOfNat_length]; exact byteLen_le_iff.2 hy
  unfold encodePublicKey
  simp only
  generalize hL : pub.curve.byteSize = L at *
  rw [if_neg (by omega)]
  have e : L * 2 + 1 = (L + 1) + L := by ring
  rw [e, splice_zeros_right (L + 1 - (bytesOfNat pub.x).length) (L + 1) _ (bytesOfNat pub.x) rfl
    (by omega) L]
  rw [show L + 1 - (bytesOfNat pub.x).length = (L - (bytesOfNat pub.x).length) + 1 by omega]
  have hz : zeros (L - (bytesOfNat pub.x).length + 1) = 0 :: zeros (L - (bytesOfNat pub.x).length) := rfl
  rw [hz]
  simp only [Bool.false_eq_true, if_false, List.cons_append]
  rw [bytesOfNat_length pub.x, zeros_append_bytesOfNat (byteLen_le_iff.2 hx), if_neg (by omega)]
  have hbl : (beFix L pub.x).length = L := beFix_length _ _
  have h1 : splice (0 :: (beFix L pub.x ++ zeros L)) 0 [4] = 4 :: (beFix L pub.x ++ zeros L) := by
    simp [splice]
  rw [h1]
  unfold Spec.sec1Uncompressed
  congr 1
  rw [← zeros_append_bytesOfNat (byteLen_le_iff.2 hy), ← bytesOfNat_length]
  unfold splice
  simp only [zeros]
  rw [show L + 1 + L - (bytesOfNat pub.y).length = (L + (L - (bytesOfNat pub.y).length)) + 1 by omega,
    List.take_succ_cons, List.drop_eq_nil_of_le (by simp [hbl]; omega)]
  rw [show List.take (L + (L - (bytesOfNat pub.y).length)) (beFix L pub.x ++ List.replicate L (0 : Byte))
    = beFix L pub.x ++ List.replicate (L - (bytesOfNat pub.y).length) 0 from by
      rw [List.take_append, hbl, List.take_of_length_le (by omega), List.take_replicate]
      congr 2; omega]
  simp

/-! ## Decoding -/

theorem decode_compressed (k1name : String) (c : Curve) (tag : Byte) (htag : tag = 2 ∨ tag = 3) (xb rest : Bytes)
    (hl : xb.length = c.byteSize) (draws : List Nat) :
    decodePublicKey k1name (tag :: (xb ++ rest)) (some c) draws =
      deCompress k1name (tag &&& 1).toNat xb c draws := by
  unfold decodePublicKey
  simp only [List.length_cons, List.length_append, List.drop_succ_cons, List.drop_zero,
    List.getD_cons_zero]
  rw [if_neg (by omega), if_neg (by rcases htag with rfl | rfl <;> decide), if_pos htag,
    List.take_left' hl]

theorem decode_uncompressed (k1name : String) (c : Curve) (xb yb rest : Bytes)
    (hl : xb.length = c.byteSize) (hl2 : yb.length = c.byteSize) (draws : List Nat) :
    decodePublicKey k1name (4 :: (xb ++ yb ++ rest)) (some c) draws =
      some (.ok { curve := c, x := natOfBytes xb, y := natOfBytes yb }) := by
  unfold decodePublicKey
  simp only [List.length_cons, List.length_append, List.drop_succ_cons, List.drop_zero,
    List.getD_cons_zero, if_true]
  rw [if_neg (by omega), if_neg (by omega), List.append_assoc, List.take_left' hl,
    List.drop_left' hl, List.take_left' hl2]

/-- Case analysis of a successful decode. -/
theorem decode_ok_cases (k1name : String) (c : Curve) (data : Bytes) (draws : List Nat) (pub : ECPub)
    (h : decodePublicKey k1name data (some c) draws = some (.ok pub)) :
    (∃ xb yb rest, data = 4 :: (xb ++ yb ++ rest) ∧ xb.length = c.byteSize ∧ yb.length = c.byteSize ∧
      pub = { curve := c, x := natOfBytes xb, y := natOfBytes yb }) ∨
    (∃ tag xb rest, data = tag :: (xb ++ rest) ∧ (tag = 2 ∨ tag = 3) ∧ xb.length = c.byteSize ∧
      deCompress k1name (tag &&& 1).toNat xb c draws = some (.ok pub)) := by
  unfold decodePublicKey at h
  simp only at h
  split at h
  · simp at h
  · rename_i hlen
    cases data with
    | nil => simp at hlen
    | cons tag d =>
      simp only [List.length_cons] at hlen
      simp only [List.getD_cons_zero, List.drop_succ_cons, List.drop_zero, List.length_cons] at h
      split at h
      · rename_i ht
        split at h
        · simp at h
        · rename_i hlen2
          left
          refine ⟨d.take c.byteSize, (d.drop c.byteSize).take c.byteSize,
            (d.drop c.byteSize).drop c.byteSize, ?_, ?_, ?_, ?_⟩
          · rw [ht, List.append_assoc, List.take_append_drop, List.take_append_drop]
          · rw [List.length_take]; omega
          · rw [List.length_take, List.length_drop]; omega
          · simpa using h.symm
      · split at h
        · rename_i ht
          right
          refine ⟨tag, d.take c.byteSize, d.drop c.byteSize, ?_, ht, ?_, h⟩
          · rw [List.take_append_drop]
          · rw [List.length_take]; omega
        · simp at h

end Verif.EC
