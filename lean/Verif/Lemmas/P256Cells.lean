/-
Memory as numbered cells of four words.  A sequence of calls on disjoint arrays acts on the contents of
the cells, and on nothing else.
-/
import Verif.Model.P256Prog
import Verif.Lemmas.P256Refine
import Verif.Lemmas.P256Points
import Verif.Lemmas.P256Affine
import Verif.Lemmas.P256Select
import Verif.Spec.P256Prog

namespace Verif.X64.P256

open Verif.Spec.P256

instance : Ptr ℕ := ⟨(· + ·)⟩

@[simp] theorem off_nat (a i : ℕ) : (off a i : ℕ) = a + i := rfl

theorem off_W (a : W) (i : ℕ) : off a i = a + BitVec.ofNat 64 (32 * i) := rfl

/-! ### Addresses of cells -/

/-- The address of word `w` of the concatenation of the arrays. -/
def waddr : List (W × ℕ) → ℕ → W
  | [], _ => 0
  | (b, n) :: R, w => if w < 4 * n then b + BitVec.ofNat 64 (8 * w) else waddr R (w - 4 * n)

/-- The address of cell `i` of the concatenation of the arrays. -/
def addr (R : List (W × ℕ)) (i : ℕ) : W := waddr R (4 * i)

/-- The number of cells. -/
def size (R : List (W × ℕ)) : ℕ := (R.map Prod.snd).sum

/-- The `len` cells from `a` on are in one array, given the sizes of the arrays. -/
def inside : List ℕ → ℕ → ℕ → Bool
  | [], _, _ => false
  | n :: ns, a, len => decide (a + len ≤ n) || (decide (n ≤ a) && inside ns (a - n) len)

theorem waddr_inside {R : List (W × ℕ)} {a len : ℕ} (h : inside (R.map Prod.snd) a len = true) {w : ℕ}
    (hw : w < 4 * len) : waddr R (4 * a + w) = addr R a + BitVec.ofNat 64 (8 * w) := by
  unfold addr
  induction R generalizing a with
  | nil => simp [inside] at h
  | cons r R ih =>
    obtain ⟨b, n⟩ := r
    simp only [List.map_cons, inside, Bool.or_eq_true, Bool.and_eq_true, decide_eq_true_eq] at h
    simp only [waddr]
    rcases h with h | ⟨h1, h2⟩
    · rw [if_pos (by omega), if_pos (by omega), addr_assoc]
      congr 2
      omega
    · rw [if_neg (by omega), if_neg (by omega)]
      have := ih h2
      rw [show 4 * (a - n) + w = 4 * a + w - 4 * n by omega, show 4 * (a - n) = 4 * a - 4 * n by omega]
        at this
      exact this

theorem inside_mono {S : List ℕ} {a len i n : ℕ} (h : inside S a len = true) (hi : i + n ≤ len) :
    inside S (a + i) n = true := by
  induction S generalizing a with
  | nil => simp [inside] at h
  | cons m S ih =>
    simp only [inside, Bool.or_eq_true, Bool.and_eq_true, decide_eq_true_eq] at h ⊢
    rcases h with h | ⟨h1, h2⟩
    · exact .inl (by omega)
    · refine .inr ⟨by omega, ?_⟩
      rw [show a + i - m = a - m + i by omega]
      exact ih h2

theorem inside_lt {S : List ℕ} {a len : ℕ} (h : inside S a len = true) : a + len ≤ S.sum := by
  induction S generalizing a with
  | nil => simp [inside] at h
  | cons m S ih =>
    simp only [inside, Bool.or_eq_true, Bool.and_eq_true, decide_eq_true_eq] at h
    rw [List.sum_cons]
    rcases h with h | ⟨h1, h2⟩
    · omega
    · have := ih h2
      omega

theorem addr_off {R : List (W × ℕ)} {a len : ℕ} (h : inside (R.map Prod.snd) a len = true) {i : ℕ}
    (hi : i < len) : addr R (a + i) = off (addr R a) i := by
  rw [off_W, show 32 * i = 8 * (4 * i) by omega, ← waddr_inside h (by omega)]
  unfold addr
  congr 1
  omega

theorem inside_one {S : List ℕ} {a : ℕ} (h : a < S.sum) : inside S a 1 = true := by
  induction S generalizing a with
  | nil => simp at h
  | cons m S ih =>
    rw [List.sum_cons] at h
    simp only [inside, Bool.or_eq_true, Bool.and_eq_true, decide_eq_true_eq]
    by_cases hm : a < m
    · exact .inl (by omega)
    · exact .inr ⟨by omega, ih (by omega)⟩

theorem waddr_mem {R : List (W × ℕ)} {w : ℕ} (h : w < 4 * size R) : waddr R w ∈ wordsOf R := by
  unfold size at h
  unfold wordsOf
  induction R generalizing w with
  | nil => simp at h
  | cons r R ih =>
    obtain ⟨b, n⟩ := r
    rw [List.map_cons, List.sum_cons] at h
    simp only [waddr, List.flatMap_cons, List.mem_append]
    by_cases hw : w < 4 * n
    · rw [if_pos hw]
      exact .inl (List.mem_map.2 ⟨w, List.mem_range.2 hw, rfl⟩)
    · rw [if_neg hw]
      exact .inr (ih (by omega))

theorem waddr_inj {R : List (W × ℕ)} (hA : Apart R) {w v : ℕ} (hw : w < 4 * size R)
    (hv : v < 4 * size R) (h : waddr R w = waddr R v) : w = v := by
  unfold Apart at hA
  induction R generalizing w v with
  | nil => simp [size] at hw
  | cons r R ih =>
    obtain ⟨b, n⟩ := r
    simp only [wordsOf, List.flatMap_cons] at hA
    rw [List.nodup_append'] at hA
    obtain ⟨h1, h2, h3⟩ := hA
    have hs : size ((b, n) :: R) = n + size R := rfl
    rw [hs] at hw hv
    simp only [waddr] at h
    by_cases cw : w < 4 * n <;> by_cases cv : v < 4 * n
    · rw [if_pos cw, if_pos cv] at h
      exact List.inj_on_of_nodup_map h1 (List.mem_range.2 cw) (List.mem_range.2 cv) h
    · rw [if_pos cw, if_neg cv] at h
      exact (h3 (List.mem_map.2 ⟨w, List.mem_range.2 cw, rfl⟩)
        (h ▸ waddr_mem (R := R) (by omega))).elim
    · rw [if_neg cw, if_pos cv] at h
      exact (h3 (List.mem_map.2 ⟨v, List.mem_range.2 cv, rfl⟩)
        (h ▸ waddr_mem (R := R) (by omega))).elim
    · rw [if_neg cw, if_neg cv] at h
      have := ih h2 (w := w - 4 * n) (v := v - 4 * n) (by omega) (by omega) h
      omega

/-! ### Contents of cells -/

/-- The contents of the cells. -/
def Holds (R : List (W × ℕ)) (m : W → W) (σ : ℕ → ℕ) : Prop := ∀ i < size R, rd4 m (addr R i) = σ i

/-- Overwrite the cells from `r` on. -/
def put (σ : ℕ → ℕ) (r : ℕ) (l : List ℕ) : ℕ → ℕ := fun c =>
  if r ≤ c ∧ c < r + l.length then l.getD (c - r) 0 else σ c

theorem rd4_addr {R : List (W × ℕ)} (m : W → W) {i : ℕ} (h : i < size R) : rd4 m (addr R i) =
    (m (waddr R (4 * i))).toNat + 2 ^ 64 * (m (waddr R (4 * i + 1))).toNat +
      2 ^ 128 * (m (waddr R (4 * i + 2))).toNat + 2 ^ 192 * (m (waddr R (4 * i + 3))).toNat := by
  have hin := inside_one (S := R.map Prod.snd) (a := i) h
  rw [waddr_inside hin (w := 1) (by omega), waddr_inside hin (w := 2) (by omega),
    waddr_inside hin (w := 3) (by omega)]
  rfl

/-- A write to some cells of one array. -/
theorem Holds.write {R : List (W × ℕ)} {m m' : W → W} {σ : ℕ → ℕ} (hA : Apart R) (h : Holds R m σ)
    {r : ℕ} {l : List ℕ} (hin : inside (R.map Prod.snd) r l.length = true)
    (hv : ∀ i < l.length, rd4 m' (off (addr R r) i) = l.getD i 0)
    (hf : ∀ b, (∀ w < 4 * l.length, b ≠ addr R r + BitVec.ofNat 64 (8 * w)) → m' b = m b) :
    Holds R m' (put σ r l) ∧ Elsewhere R m m' := by
  have hlt := inside_lt hin
  change r + l.length ≤ size R at hlt
  constructor
  · intro i hi
    unfold put
    by_cases hc : r ≤ i ∧ i < r + l.length
    · rw [if_pos hc, ← hv (i - r) (by omega), ← addr_off hin (by omega)]
      congr 2
      omega
    · rw [if_neg hc, ← h i hi, rd4_addr m hi, rd4_addr m' hi]
      have key : ∀ k < 4, m' (waddr R (4 * i + k)) = m (waddr R (4 * i + k)) := fun k hk =>
        hf _ fun w hw e => by
          rw [← waddr_inside hin hw] at e
          have := waddr_inj hA (by omega) (by omega) e
          omega
      have h0 := key 0 (by omega)
      rw [Nat.add_zero] at h0
      rw [h0, key 1 (by omega), key 2 (by omega), key 3 (by omega)]
  · intro b hb
    refine hf b fun w hw e => hb ?_
    rw [e, ← waddr_inside hin hw]
    exact waddr_mem (by omega)

/-! ### Calls on cells -/

/-- Three cells as a point. -/
def jac (σ : ℕ → ℕ) (a : ℕ) : Jac ℕ := ⟨σ a, σ (a + 1), σ (a + 2)⟩

/-- A point as the contents of three cells. -/
def Jac.list (j : Jac ℕ) : List ℕ := [j.x, j.y, j.z]

/-- The number with the bytes in reverse order. -/
def revBytes (v : ℕ) : ℕ := natOfBytes (beFix 32 v).reverse

/-- The effect of a call on the contents of cells. -/
def Call.sem (σ : ℕ → ℕ) : Call ℕ → ℕ → ℕ
  | .sqr r a => put σ r [mulP (σ a) (σ a)]
  | .mul r a b => put σ r [mulP (σ a) (σ b)]
  | .ordMul r a b => put σ r [mulN (σ a) (σ b)]
  | .fromMont r a => put σ r [fromMontP (σ a)]
  | .negCond v c => put σ v [negVal (σ v) c]
  | .movCond r a b c => put σ r (movVal (jac σ a) (jac σ b) c).list
  | .select r t i => put σ r (selectVal ((List.range 16).map fun j => jac σ (t + 3 * j)) i).list
  | .selectBase r t i =>
    let e := selectBaseVal (fun j => (σ (t + 2 * j), σ (t + 2 * j + 1))) i
    put σ r [e.1, e.2]
  | .add r a b => put σ r (pointAdd (jac σ a) (jac σ b)).list
  | .double r a => put σ r (pointDouble (jac σ a)).list
  | .addAffine r a b sign sel zero => put σ r (pointAddAffine oneM (jac σ a) (σ b) (σ (b + 1))
      (decide (sign ≠ 0)) (sel.toNat % 2 ^ 32) (zero.toNat % 2 ^ 32)).list
  | .toBig r a => put σ r [revBytes (σ a)]
  | .copy d a n => put σ d ((List.range n).map fun i => σ (a + i))
  | .store d v => put σ d [v]

/-- The cells a call uses, each array as first cell and number of cells. -/
def Call.uses {α : Type} : Call α → List (α × ℕ)
  | .sqr r a | .fromMont r a | .toBig r a => [(r, 1), (a, 1)]
  | .mul r a b | .ordMul r a b => [(r, 1), (a, 1), (b, 1)]
  | .negCond v _ => [(v, 1)]
  | .movCond r a b _ | .add r a b => [(r, 3), (a, 3), (b, 3)]
  | .select r t _ => [(r, 3), (t, 48)]
  | .selectBase r t _ => [(r, 2), (t, 128)]
  | .double r a => [(r, 3), (a, 3)]
  | .addAffine r a b _ _ _ => [(r, 3), (a, 3), (b, 2)]
  | .copy d a n => [(d, n), (a, n)]
  | .store d _ => [(d, 1)]

/-- The cells a call writes: first cell and number. -/
def Call.dest {α : Type} : Call α → α × ℕ
  | .sqr r _ | .fromMont r _ | .toBig r _ | .mul r _ _ | .ordMul r _ _ | .negCond r _ | .store r _ => (r, 1)
  | .movCond r _ _ _ | .add r _ _ | .select r _ _ | .double r _ | .addAffine r _ _ _ _ _ => (r, 3)
  | .selectBase r _ _ => (r, 2)
  | .copy d _ n => (d, n)

/-- The call stays within its arrays. -/
def Call.fits (S : List ℕ) (c : Call ℕ) : Bool :=
  (c.uses.all fun u => inside S u.1 u.2) && match c with
    | .store _ v => decide (v < 2 ^ 256)
    | _ => true

/-- A call on other pointers. -/
def Call.map {α β : Type} (f : α → β) : Call α → Call β
  | .sqr r a => .sqr (f r) (f a)
  | .mul r a b => .mul (f r) (f a) (f b)
  | .ordMul r a b => .ordMul (f r) (f a) (f b)
  | .fromMont r a => .fromMont (f r) (f a)
  | .negCond v c => .negCond (f v) c
  | .movCond r a b c => .movCond (f r) (f a) (f b) c
  | .select r t i => .select (f r) (f t) i
  | .selectBase r t i => .selectBase (f r) (f t) i
  | .add r a b => .add (f r) (f a) (f b)
  | .double r a => .double (f r) (f a)
  | .addAffine r a b sign sel zero => .addAffine (f r) (f a) (f b) sign sel zero
  | .toBig r a => .toBig (f r) (f a)
  | .copy d a n => .copy (f d) (f a) n
  | .store d v => .store (f d) v

theorem off_zero (a : W) : off a 0 = a := by
  rw [off_W]
  exact BitVec.add_zero a

/-- The write of one number. -/
theorem Holds.wr4 {R : List (W × ℕ)} {m : W → W} {σ : ℕ → ℕ} (hA : Apart R) (h : Holds R m σ)
    {r v : ℕ} (hin : inside (R.map Prod.snd) r 1 = true) (hv : v < 2 ^ 256) :
    Holds R (wr4 m (addr R r) v) (put σ r [v]) ∧ Elsewhere R m (wr4 m (addr R r) v) := by
  refine h.write hA hin ?_ ?_
  · intro i hi
    have : i = 0 := by simpa using hi
    subst this
    rw [off_zero, rd4_wr4 _ _ hv]
    rfl
  · intro b hb
    refine wr4_other ?_ (hb 1 (by simp)) (hb 2 (by simp)) (hb 3 (by simp))
    have := hb 0 (by simp)
    rwa [show addr R r + BitVec.ofNat 64 (8 * 0) = addr R r from BitVec.add_zero _] at this

theorem rdJac_addr {R : List (W × ℕ)} {m : W → W} {σ : ℕ → ℕ} (h : Holds R m σ) {a : ℕ}
    (hin : inside (R.map Prod.snd) a 3 = true) : rdJac m (addr R a) = jac σ a := by
  have hlt := inside_lt hin
  change a + 3 ≤ size R at hlt
  unfold rdJac jac
  rw [← h a (by omega), ← h (a + 1) (by omega), ← h (a + 2) (by omega), addr_off hin (i := 1) (by omega),
    addr_off hin (i := 2) (by omega)]
  rfl

/-- The write of a point. -/
theorem Holds.wrote {R : List (W × ℕ)} {m m' : W → W} {σ : ℕ → ℕ} (hA : Apart R) (h : Holds R m σ)
    {r : ℕ} {j : Jac ℕ} (hin : inside (R.map Prod.snd) r 3 = true) (hw : Wrote m m' (addr R r) j) :
    Holds R m' (put σ r j.list) ∧ Elsewhere R m m' := by
  refine h.write (l := j.list) hA hin ?_ hw.2
  intro i hi
  have hi3 : i < 3 := hi
  have h0 := hw.1
  subst h0
  interval_cases i
  · rw [off_zero]; rfl
  · rfl
  · rfl

/-- The write of an affine point. -/
theorem Holds.wrote2 {R : List (W × ℕ)} {m m' : W → W} {σ : ℕ → ℕ} (hA : Apart R) (h : Holds R m σ)
    {r x y : ℕ} (hin : inside (R.map Prod.snd) r 2 = true) (hw : Wrote2 m m' (addr R r) x y) :
    Holds R m' (put σ r [x, y]) ∧ Elsewhere R m m' := by
  refine h.write (l := [x, y]) hA hin ?_ hw.2.2
  intro i hi
  have hi2 : i < 2 := hi
  have h0 := hw.1
  have h1 := hw.2.1
  subst h0 h1
  interval_cases i
  · rw [off_zero]; rfl
  · rfl

theorem copyWords_succ (m : W → W) (d a : W) (n : ℕ) : copyWords m d a (n + 1) =
    upd (copyWords m d a n) (d + BitVec.ofNat 64 (8 * n)) (m (a + BitVec.ofNat 64 (8 * n))) := by
  unfold copyWords
  rw [List.range_succ, List.foldl_append]
  rfl

theorem copyWords_other (m : W → W) (d a : W) (n : ℕ) {b : W}
    (h : ∀ w < n, b ≠ d + BitVec.ofNat 64 (8 * w)) : copyWords m d a n b = m b := by
  induction n with
  | zero => rfl
  | succ n ih =>
    rw [copyWords_succ]
    unfold upd
    rw [if_neg (h n (by omega))]
    exact ih fun w hw => h w (by omega)

theorem copyWords_at (m : W → W) (d a : W) (n : ℕ)
    (hd : ∀ i < n, ∀ j < n, d + BitVec.ofNat 64 (8 * i) = d + BitVec.ofNat 64 (8 * j) → i = j) {w : ℕ}
    (hw : w < n) : copyWords m d a n (d + BitVec.ofNat 64 (8 * w)) = m (a + BitVec.ofNat 64 (8 * w)) := by
  induction n with
  | zero => omega
  | succ n ih =>
    rw [copyWords_succ]
    unfold upd
    by_cases h : w = n
    · subst h
      rw [if_pos rfl]
    · rw [if_neg fun e => h (hd w hw n (by omega) e)]
      exact ih (fun i hi j hj => hd i (by omega) j (by omega)) (by omega)

theorem rd4_cell (m : W → W) (a : W) (i : ℕ) : rd4 m (off a i) =
    (m (a + BitVec.ofNat 64 (8 * (4 * i)))).toNat + 2 ^ 64 * (m (a + BitVec.ofNat 64 (8 * (4 * i + 1)))).toNat +
      2 ^ 128 * (m (a + BitVec.ofNat 64 (8 * (4 * i + 2)))).toNat +
      2 ^ 192 * (m (a + BitVec.ofNat 64 (8 * (4 * i + 3)))).toNat := by
  have e : ∀ k, a + BitVec.ofNat 64 (8 * (4 * i + k)) = off a i + BitVec.ofNat 64 (8 * k) := fun k => by
    rw [off_W, addr_assoc]
    congr 2
    omega
  rw [e 1, e 2, e 3, off_W, show 8 * (4 * i) = 32 * i by omega]
  rfl

/-- A copy. -/
theorem Holds.copy {R : List (W × ℕ)} {m : W → W} {σ : ℕ → ℕ} (hA : Apart R) (h : Holds R m σ)
    {d a n : ℕ} (hd : inside (R.map Prod.snd) d n = true) (ha : inside (R.map Prod.snd) a n = true) :
    Holds R (copyWords m (addr R d) (addr R a) (4 * n)) (put σ d ((List.range n).map fun i => σ (a + i))) ∧
    Elsewhere R m (copyWords m (addr R d) (addr R a) (4 * n)) := by
  have hl : ((List.range n).map fun i => σ (a + i)).length = n := by simp
  have hlt := inside_lt hd
  have hla := inside_lt ha
  change d + n ≤ size R at hlt
  change a + n ≤ size R at hla
  have hinj : ∀ i < 4 * n, ∀ j < 4 * n,
      addr R d + BitVec.ofNat 64 (8 * i) = addr R d + BitVec.ofNat 64 (8 * j) → i = j := by
    intro i hi j hj e
    rw [← waddr_inside hd hi, ← waddr_inside hd hj] at e
    have := waddr_inj hA (by omega) (by omega) e
    omega
  refine h.write hA (by rwa [hl]) ?_ ?_
  · rw [hl]
    intro i hi
    have hg : ((List.range n).map fun i => σ (a + i)).getD i 0 = σ (a + i) := by
      rw [List.getD_eq_getElem?_getD, List.getElem?_map, List.getElem?_range hi]
      rfl
    rw [hg, ← h (a + i) (by omega), addr_off ha hi, rd4_cell, rd4_cell,
      copyWords_at _ _ _ _ hinj (by omega), copyWords_at _ _ _ _ hinj (by omega),
      copyWords_at _ _ _ _ hinj (by omega), copyWords_at _ _ _ _ hinj (by omega)]
  · rw [hl]
    exact fun b hb => copyWords_other _ _ _ _ hb

theorem rd_mulP_lt (m : W → W) (a b : W) : mulP (rd4 m a) (rd4 m b) < 2 ^ 256 :=
  redc_lt_two_pow (by decide) (Nat.mul_lt_mul_of_lt_of_lt (rd4_lt m a) (rd4_lt m b))

theorem rd_mulN_lt (m : W → W) (a b : W) : mulN (rd4 m a) (rd4 m b) < 2 ^ 256 :=
  redc_lt_two_pow (by decide) (Nat.mul_lt_mul_of_lt_of_lt (rd4_lt m a) (rd4_lt m b))

theorem rd_fromMontP_lt (m : W → W) (a : W) : fromMontP (rd4 m a) < 2 ^ 256 :=
  redc_lt_two_pow (by decide) ((rd4_lt m a).trans (by decide))

theorem negP_lt {a : ℕ} (h : a < 2 ^ 256) (c : Bool) : negP a c < 2 ^ 256 := by
  unfold negP
  split
  · exact Nat.mod_lt _ (by decide)
  · exact h

theorem negP_val (a : ℕ) (c : W) : negP a (decide (c ≠ 0)) = negVal a c := by
  unfold negVal
  by_cases hc : c = 0
  · rw [if_pos hc]
    simp [negP, hc]
  · rw [if_neg hc, decide_eq_true hc]
    rfl

/-! ### Calls on memory -/

/-- The state at a call. -/
theorem at_call (s : St) (m : W → W) (f : ℕ → W) :
    ∃ s' : St, s' = { s with mem := m, arg := f } ∧ s'.mem = m ∧ s'.arg = f := ⟨_, rfl, rfl, rfl⟩

theorem run_sqr (s : St) (m : W → W) (r a : W) :
    (Call.sqr r a).run s m = some (wr4 m r (mulP (rd4 m a) (rd4 m a))) := by
  obtain ⟨s', e, hm, ha⟩ := at_call s m (Call.sqr r a).arg
  have h := exec_sqr s'
  rw [hm, ha] at h
  unfold Call.run
  dsimp only
  rw [← e, h]
  rfl

theorem run_mul (s : St) (m : W → W) (r a b : W) :
    (Call.mul r a b).run s m = some (wr4 m r (mulP (rd4 m a) (rd4 m b))) := by
  obtain ⟨s', e, hm, ha⟩ := at_call s m (Call.mul r a b).arg
  have h := exec_mul s'
  rw [hm, ha] at h
  unfold Call.run
  dsimp only
  rw [← e, h]
  rfl

theorem run_ordMul (s : St) (m : W → W) (r a b : W) :
    (Call.ordMul r a b).run s m = some (wr4 m r (mulN (rd4 m a) (rd4 m b))) := by
  obtain ⟨s', e, hm, ha⟩ := at_call s m (Call.ordMul r a b).arg
  have h := exec_ordMul s'
  rw [hm, ha] at h
  unfold Call.run
  dsimp only
  rw [← e, h]
  rfl

theorem run_fromMont (s : St) (m : W → W) (r a : W) :
    (Call.fromMont r a).run s m = some (wr4 m r (fromMontP (rd4 m a))) := by
  obtain ⟨s', e, hm, ha⟩ := at_call s m (Call.fromMont r a).arg
  have h := exec_fromMont s'
  rw [hm, ha] at h
  unfold Call.run
  dsimp only
  rw [← e, h]
  rfl

theorem run_negCond (s : St) (m : W → W) (r c : W) :
    (Call.negCond r c).run s m = some (wr4 m r (negP (rd4 m r) (decide (c ≠ 0)))) := by
  obtain ⟨s', e, hm, ha⟩ := at_call s m (Call.negCond r c).arg
  have h := exec_negCond s'
  rw [hm, ha] at h
  unfold Call.run
  dsimp only
  rw [← e, h]
  rfl

theorem run_movCond (s : St) (m : W → W) (r a b c : W) :
    ∃ m', (Call.movCond r a b c).run s m = some m' ∧ Wrote m m' r (movVal (rdJac m a) (rdJac m b) c) := by
  obtain ⟨s', e, hm, ha⟩ := at_call s m (Call.movCond r a b c).arg
  have h := exec_movCond s'
  rw [hm, ha] at h
  refine ⟨(exec movCond s').mem, ?_, h⟩
  unfold Call.run
  dsimp only
  rw [← e]

theorem run_add (s : St) (m : W → W) (r a b : W) :
    ∃ m', (Call.add r a b).run s m = some m' ∧ Wrote m m' r (pointAdd (rdJac m a) (rdJac m b)) := by
  obtain ⟨s', e, hm, ha⟩ := at_call s m (Call.add r a b).arg
  have h := exec_pointAdd s'
  rw [hm, ha] at h
  refine ⟨(exec pointAddAsm s').mem, ?_, h⟩
  unfold Call.run
  dsimp only
  rw [← e]

theorem run_double (s : St) (m : W → W) (r a : W) :
    ∃ m', (Call.double r a).run s m = some m' ∧ Wrote m m' r (pointDouble (rdJac m a)) := by
  obtain ⟨s', e, hm, ha⟩ := at_call s m (Call.double r a).arg
  have h := exec_pointDouble s'
  rw [hm, ha] at h
  refine ⟨(exec pointDoubleAsm s').mem, ?_, h⟩
  unfold Call.run
  dsimp only
  rw [← e]

theorem run_addAffine (s : St) (m : W → W) (r a b sign sel zero : W) :
    ∃ m', (Call.addAffine r a b sign sel zero).run s m = some m' ∧ Wrote m m' r (pointAddAffine oneM (rdJac m a) (rd4 m b) (rd4 m (off b 1))
      (decide (sign ≠ 0)) (sel.toNat % 2 ^ 32) (zero.toNat % 2 ^ 32)) := by
  obtain ⟨s', e, hm, ha⟩ := at_call s m (Call.addAffine r a b sign sel zero).arg
  have h := exec_pointAddAffine s'
  rw [hm, ha] at h
  refine ⟨(exec pointAddAffineAsm s').mem, ?_, h⟩
  unfold Call.run
  dsimp only
  rw [← e]

theorem run_select (s : St) (m : W → W) (r t i : W) :
    ∃ m', (Call.select r t i).run s m = some m' ∧
      Wrote m m' r (if 1 ≤ i.toNat % 2 ^ 32 ∧ i.toNat % 2 ^ 32 ≤ 16 then
        rdJac m (t + BitVec.ofNat 64 (96 * (i.toNat % 2 ^ 32 - 1))) else ⟨0, 0, 0⟩) := by
  obtain ⟨s', e, hm, ha⟩ := at_call s m (Call.select r t i).arg
  obtain ⟨s2, h1, h2⟩ := exec_select s' 16 (le_refl 16)
  rw [hm, ha] at h2
  refine ⟨s2.mem, ?_, h2⟩
  unfold Call.run
  dsimp only
  rw [← e, h1]
  rfl

theorem run_selectBase (s : St) (m : W → W) (r t i : W) :
    ∃ m', (Call.selectBase r t i).run s m = some m' ∧
      Wrote2 m m' r (if 1 ≤ i.toNat % 2 ^ 32 ∧ i.toNat % 2 ^ 32 ≤ 64 then
        rd4 m (t + BitVec.ofNat 64 (64 * (i.toNat % 2 ^ 32 - 1))) else 0)
      (if 1 ≤ i.toNat % 2 ^ 32 ∧ i.toNat % 2 ^ 32 ≤ 64 then
        rd4 m (t + BitVec.ofNat 64 (64 * (i.toNat % 2 ^ 32 - 1)) + 32) else 0) := by
  obtain ⟨s', e, hm, ha⟩ := at_call s m (Call.selectBase r t i).arg
  obtain ⟨s2, h1, h2⟩ := exec_selectBase s' 32 (le_refl 32)
  rw [hm, ha] at h2
  refine ⟨s2.mem, ?_, h2⟩
  unfold Call.run
  dsimp only
  rw [← e, h1]
  rfl

theorem num_rd4 (m : W → W) (a : W) : num m a = rd4 m a := by
  unfold num rd4
  ring

theorem bytes32_eq (m : W → W) (a : W) : bytes32 m a = (beFix 32 (rd4 m a)).reverse := by
  have h := beFix_natOfBytes (bytes32 m a).reverse
  rw [List.length_reverse, bytes32_length, bytes32_rev, num_rd4] at h
  rw [h, List.reverse_reverse]

theorem revBytes_revBytes {v : ℕ} (h : v < 2 ^ 256) : revBytes (revBytes v) = v := by
  unfold revBytes
  have h1 := beFix_natOfBytes (beFix 32 v).reverse
  rw [List.length_reverse, beFix_length] at h1
  rw [h1, List.reverse_reverse, natOfBytes_beFix_of_lt (lt_of_lt_of_eq h (by norm_num))]

theorem natOfBytes_bytes32 (m : W → W) (a : W) : natOfBytes (bytes32 m a) = revBytes (rd4 m a) := by
  rw [bytes32_eq]
  rfl

theorem run_toBig (s : St) (m : W → W) (r a : W) :
    ∃ m', (Call.toBig r a).run s m = some m' ∧ rd4 m' r = revBytes (rd4 m a) ∧
      ∀ b, b ≠ r → b ≠ r + 8 → b ≠ r + 16 → b ≠ r + 24 → m' b = m b := by
  obtain ⟨s', e, hm, ha⟩ := at_call s m (Call.toBig r a).arg
  have h := exec_bigToLittle s'
  rw [hm, ha] at h
  refine ⟨(exec bigToLittle s').mem, ?_, ?_, h.2⟩
  · unfold Call.run
    dsimp only
    rw [← e]
  · have h1 : bytes32 (exec bigToLittle s').mem r = (bytes32 m a).reverse := h.1
    rw [← num_rd4, ← bytes32_rev, h1, List.reverse_reverse, natOfBytes_bytes32]

theorem Holds.one {R : List (W × ℕ)} {m : W → W} {σ : ℕ → ℕ} (h : Holds R m σ) {a : ℕ}
    (ha : inside (R.map Prod.snd) a 1 = true) : rd4 m (addr R a) = σ a := by
  have := inside_lt ha
  exact h a (by change a + 1 ≤ size R at this; omega)

/-- The claim of `Call.run_sem`. -/
def Call.Good (c : Call ℕ) : Prop := ∀ {R : List (W × ℕ)} {m : W → W} {σ : ℕ → ℕ}, Apart R → Holds R m σ →
    c.fits (R.map Prod.snd) = true → ∀ s : St,
    ∃ m', (c.map (addr R)).run s m = some m' ∧ Holds R m' (c.sem σ) ∧ Elsewhere R m m'

theorem Call.good_sqr (r : ℕ) (a : ℕ) : (Call.sqr r a).Good := by
  intro R m σ hA h hc s
  simp only [fits, uses, List.all_cons, List.all_nil, Bool.and_eq_true] at hc
  refine ⟨_, run_sqr s m (addr R r) (addr R a), ?_⟩
  dsimp only [sem]
  rw [← h.one hc.1.2.1]
  exact h.wr4 hA hc.1.1 (rd_mulP_lt _ _ _)

theorem Call.good_mul (r : ℕ) (a : ℕ) (b : ℕ) : (Call.mul r a b).Good := by
  intro R m σ hA h hc s
  simp only [fits, uses, List.all_cons, List.all_nil, Bool.and_eq_true] at hc
  refine ⟨_, run_mul s m (addr R r) (addr R a) (addr R b), ?_⟩
  dsimp only [sem]
  rw [← h.one hc.1.2.1, ← h.one hc.1.2.2.1]
  exact h.wr4 hA hc.1.1 (rd_mulP_lt _ _ _)

theorem Call.good_ordMul (r : ℕ) (a : ℕ) (b : ℕ) : (Call.ordMul r a b).Good := by
  intro R m σ hA h hc s
  simp only [fits, uses, List.all_cons, List.all_nil, Bool.and_eq_true] at hc
  refine ⟨_, run_ordMul s m (addr R r) (addr R a) (addr R b), ?_⟩
  dsimp only [sem]
  rw [← h.one hc.1.2.1, ← h.one hc.1.2.2.1]
  exact h.wr4 hA hc.1.1 (rd_mulN_lt _ _ _)

theorem Call.good_fromMont (r : ℕ) (a : ℕ) : (Call.fromMont r a).Good := by
  intro R m σ hA h hc s
  simp only [fits, uses, List.all_cons, List.all_nil, Bool.and_eq_true] at hc
  refine ⟨_, run_fromMont s m (addr R r) (addr R a), ?_⟩
  dsimp only [sem]
  rw [← h.one hc.1.2.1]
  exact h.wr4 hA hc.1.1 (rd_fromMontP_lt _ _)

theorem Call.good_negCond (v : ℕ) (c : W) : (Call.negCond v c).Good := by
  intro R m σ hA h hc s
  simp only [fits, uses, List.all_cons, List.all_nil, Bool.and_eq_true] at hc
  refine ⟨_, run_negCond s m (addr R v) c, ?_⟩
  dsimp only [sem]
  rw [← h.one hc.1.1]
  have := h.wr4 hA hc.1.1 (negP_lt (rd4_lt m (addr R v)) (decide (c ≠ 0)))
  rw [negP_val] at this ⊢
  exact this

theorem Call.good_movCond (r : ℕ) (a : ℕ) (b : ℕ) (c : W) : (Call.movCond r a b c).Good := by
  intro R m σ hA h hc s
  simp only [fits, uses, List.all_cons, List.all_nil, Bool.and_eq_true] at hc
  obtain ⟨m', h1, h2⟩ := run_movCond s m (addr R r) (addr R a) (addr R b) c
  rw [rdJac_addr h hc.1.2.1, rdJac_addr h hc.1.2.2.1] at h2
  exact ⟨m', h1, h.wrote hA hc.1.1 h2⟩

theorem Call.good_select (r : ℕ) (t : ℕ) (i : W) : (Call.select r t i).Good := by
  intro R m σ hA h hc s
  simp only [fits, uses, List.all_cons, List.all_nil, Bool.and_eq_true] at hc
  obtain ⟨m', h1, h2⟩ := run_select s m (addr R r) (addr R t) i
  refine ⟨m', h1, h.wrote hA hc.1.1 ?_⟩
  have e : selectVal ((List.range 16).map fun j => jac σ (t + 3 * j)) i =
      if 1 ≤ i.toNat % 2 ^ 32 ∧ i.toNat % 2 ^ 32 ≤ 16 then
        rdJac m (addr R t + BitVec.ofNat 64 (96 * (i.toNat % 2 ^ 32 - 1))) else ⟨0, 0, 0⟩ := by
    unfold selectVal
    split
    · rename_i hi
      generalize i.toNat % 2 ^ 32 = j at hi
      rw [List.getD_eq_getElem?_getD, List.getElem?_map, List.getElem?_range (by omega)]
      change jac σ (t + 3 * (j - 1)) = _
      rw [← rdJac_addr h (inside_mono hc.1.2.1 (by omega)),
        addr_off hc.1.2.1 (i := 3 * (j - 1)) (by omega), off_W]
      congr 3
      omega
    · rfl
  rw [e]
  exact h2

theorem Call.good_selectBase (r : ℕ) (t : ℕ) (i : W) : (Call.selectBase r t i).Good := by
  intro R m σ hA h hc s
  simp only [fits, uses, List.all_cons, List.all_nil, Bool.and_eq_true] at hc
  obtain ⟨m', h1, h2⟩ := run_selectBase s m (addr R r) (addr R t) i
  refine ⟨m', h1, ?_⟩
  dsimp only [sem]
  refine h.wrote2 hA hc.1.1 ?_
  have hlt := inside_lt hc.1.2.1
  change t + 128 ≤ size R at hlt
  have ho : ∀ j, off (off (addr R t) (2 * j)) 1 = off (addr R t) (2 * j + 1) := fun j => by
    rw [off_W, off_W, off_W, addr_assoc]
    congr 2
  have e1 : (selectBaseVal (fun j => (σ (t + 2 * j), σ (t + 2 * j + 1))) i).1 =
      if 1 ≤ i.toNat % 2 ^ 32 ∧ i.toNat % 2 ^ 32 ≤ 64 then
        rd4 m (addr R t + BitVec.ofNat 64 (64 * (i.toNat % 2 ^ 32 - 1))) else 0 := by
    unfold selectBaseVal
    split
    · rename_i hi
      generalize i.toNat % 2 ^ 32 = j at hi
      change σ (t + 2 * (j - 1)) = _
      rw [← h _ (by omega), addr_off hc.1.2.1 (i := 2 * (j - 1)) (by omega), off_W]
      congr 3
      omega
    · rfl
  have e2 : (selectBaseVal (fun j => (σ (t + 2 * j), σ (t + 2 * j + 1))) i).2 =
      if 1 ≤ i.toNat % 2 ^ 32 ∧ i.toNat % 2 ^ 32 ≤ 64 then
        rd4 m (addr R t + BitVec.ofNat 64 (64 * (i.toNat % 2 ^ 32 - 1)) + 32) else 0 := by
    unfold selectBaseVal
    split
    · rename_i hi
      generalize i.toNat % 2 ^ 32 = j at hi
      change σ (t + 2 * (j - 1) + 1) = _
      rw [← h _ (by omega), Nat.add_assoc, addr_off hc.1.2.1 (i := 2 * (j - 1) + 1) (by omega), ← ho,
        off_W, off_W]
      congr 4
      omega
    · rfl
  rw [e1, e2]
  exact h2

theorem Call.good_add (r : ℕ) (a : ℕ) (b : ℕ) : (Call.add r a b).Good := by
  intro R m σ hA h hc s
  simp only [fits, uses, List.all_cons, List.all_nil, Bool.and_eq_true] at hc
  obtain ⟨m', h1, h2⟩ := run_add s m (addr R r) (addr R a) (addr R b)
  rw [rdJac_addr h hc.1.2.1, rdJac_addr h hc.1.2.2.1] at h2
  exact ⟨m', h1, h.wrote hA hc.1.1 h2⟩

theorem Call.good_double (r : ℕ) (a : ℕ) : (Call.double r a).Good := by
  intro R m σ hA h hc s
  simp only [fits, uses, List.all_cons, List.all_nil, Bool.and_eq_true] at hc
  obtain ⟨m', h1, h2⟩ := run_double s m (addr R r) (addr R a)
  rw [rdJac_addr h hc.1.2.1] at h2
  exact ⟨m', h1, h.wrote hA hc.1.1 h2⟩

theorem Call.good_addAffine (r : ℕ) (a : ℕ) (b : ℕ) (sign : W) (sel : W) (zero : W) : (Call.addAffine r a b sign sel zero).Good := by
  intro R m σ hA h hc s
  simp only [fits, uses, List.all_cons, List.all_nil, Bool.and_eq_true] at hc
  have hlt := inside_lt hc.1.2.2.1
  change b + 2 ≤ size R at hlt
  obtain ⟨m', h1, h2⟩ := run_addAffine s m (addr R r) (addr R a) (addr R b) sign sel zero
  rw [rdJac_addr h hc.1.2.1, h b (by omega), ← addr_off hc.1.2.2.1 (i := 1) (by omega),
    h (b + 1) (by omega)] at h2
  exact ⟨m', h1, h.wrote hA hc.1.1 h2⟩

theorem Call.good_toBig (r : ℕ) (a : ℕ) : (Call.toBig r a).Good := by
  intro R m σ hA h hc s
  simp only [fits, uses, List.all_cons, List.all_nil, Bool.and_eq_true] at hc
  obtain ⟨m', h1, h2, h3⟩ := run_toBig s m (addr R r) (addr R a)
  refine ⟨m', h1, ?_⟩
  dsimp only [sem]
  rw [← h.one hc.1.2.1]
  exact h.write hA hc.1.1 (by
    intro i hi
    have : i = 0 := by simpa using hi
    subst this
    rw [off_zero, h2, List.getD_cons_zero]) (by
    intro b hb
    refine h3 b ?_ (hb 1 (by simp)) (hb 2 (by simp)) (hb 3 (by simp))
    have := hb 0 (by simp)
    rwa [show addr R r + BitVec.ofNat 64 (8 * 0) = addr R r from BitVec.add_zero _] at this)

theorem Call.good_copy (d : ℕ) (a : ℕ) (n : ℕ) : (Call.copy d a n).Good := by
  intro R m σ hA h hc s
  simp only [fits, uses, List.all_cons, List.all_nil, Bool.and_eq_true] at hc
  exact ⟨_, rfl, h.copy hA hc.1.1 hc.1.2.1⟩

theorem Call.good_store (d : ℕ) (v : ℕ) : (Call.store d v).Good := by
  intro R m σ hA h hc s
  simp only [fits, uses, List.all_cons, List.all_nil, Bool.and_eq_true, decide_eq_true_eq] at hc
  exact ⟨_, rfl, h.wr4 hA hc.1.1 hc.2⟩

/-- A call on cells. -/
theorem Call.run_sem {R : List (W × ℕ)} {m : W → W} {σ : ℕ → ℕ} (hA : Apart R) (h : Holds R m σ)
    (c : Call ℕ) (hc : c.fits (R.map Prod.snd) = true) (s : St) :
    ∃ m', (c.map (addr R)).run s m = some m' ∧ Holds R m' (c.sem σ) ∧ Elsewhere R m m' := by
  cases c with
  | sqr r a => exact good_sqr r a hA h hc s
  | mul r a b => exact good_mul r a b hA h hc s
  | ordMul r a b => exact good_ordMul r a b hA h hc s
  | fromMont r a => exact good_fromMont r a hA h hc s
  | negCond v c => exact good_negCond v c hA h hc s
  | movCond r a b c => exact good_movCond r a b c hA h hc s
  | select r t i => exact good_select r t i hA h hc s
  | selectBase r t i => exact good_selectBase r t i hA h hc s
  | add r a b => exact good_add r a b hA h hc s
  | double r a => exact good_double r a hA h hc s
  | addAffine r a b sign sel zero => exact good_addAffine r a b sign sel zero hA h hc s
  | toBig r a => exact good_toBig r a hA h hc s
  | copy d a n => exact good_copy d a n hA h hc s
  | store d v => exact good_store d v hA h hc s

/-! ### What a call writes -/

theorem mem_words_one {a b : W} {n : ℕ} : b ∈ wordsOf [(a, n)] ↔ ∃ w < 4 * n, b = a + BitVec.ofNat 64 (8 * w) := by
  simp only [wordsOf, List.flatMap_cons, List.flatMap_nil, List.append_nil, List.mem_map, List.mem_range]
  exact ⟨fun ⟨w, h1, h2⟩ => ⟨w, h1, h2.symm⟩, fun ⟨w, h1, h2⟩ => ⟨w, h1, h2.symm⟩⟩

theorem else_words {a : W} {n : ℕ} {m m' : W → W}
    (h : ∀ b, (∀ w < 4 * n, b ≠ a + BitVec.ofNat 64 (8 * w)) → m' b = m b) : Elsewhere [(a, n)] m m' :=
  fun b hb => h b fun w hw e => hb (mem_words_one.2 ⟨w, hw, e⟩)

theorem else_four {a : W} {m m' : W → W}
    (h : ∀ b, b ≠ a → b ≠ a + 8 → b ≠ a + 16 → b ≠ a + 24 → m' b = m b) : Elsewhere [(a, 1)] m m' := by
  refine else_words fun b hb => h b ?_ (hb 1 (by omega)) (hb 2 (by omega)) (hb 3 (by omega))
  have := hb 0 (by omega)
  rwa [show a + BitVec.ofNat 64 (8 * 0) = a from BitVec.add_zero _] at this

theorem else_wr4 (a : W) (m : W → W) (v : ℕ) : Elsewhere [(a, 1)] m (wr4 m a v) :=
  else_four fun _ h0 h1 h2 h3 => wr4_other h0 h1 h2 h3

/-- A call ends and writes nowhere else. -/
theorem Call.run_dest (c : Call W) (s : St) (m : W → W) :
    ∃ m', c.run s m = some m' ∧ Elsewhere [c.dest] m m' := by
  cases c with
  | sqr r a => exact ⟨_, run_sqr s m r a, else_wr4 _ _ _⟩
  | mul r a b => exact ⟨_, run_mul s m r a b, else_wr4 _ _ _⟩
  | ordMul r a b => exact ⟨_, run_ordMul s m r a b, else_wr4 _ _ _⟩
  | fromMont r a => exact ⟨_, run_fromMont s m r a, else_wr4 _ _ _⟩
  | negCond v c => exact ⟨_, run_negCond s m v c, else_wr4 _ _ _⟩
  | movCond r a b c =>
    obtain ⟨m', h1, h2⟩ := run_movCond s m r a b c
    exact ⟨m', h1, else_words h2.2⟩
  | select r t i =>
    obtain ⟨m', h1, h2⟩ := run_select s m r t i
    exact ⟨m', h1, else_words h2.2⟩
  | selectBase r t i =>
    obtain ⟨m', h1, h2⟩ := run_selectBase s m r t i
    exact ⟨m', h1, else_words h2.2.2⟩
  | add r a b =>
    obtain ⟨m', h1, h2⟩ := run_add s m r a b
    exact ⟨m', h1, else_words h2.2⟩
  | double r a =>
    obtain ⟨m', h1, h2⟩ := run_double s m r a
    exact ⟨m', h1, else_words h2.2⟩
  | addAffine r a b sign sel zero =>
    obtain ⟨m', h1, h2⟩ := run_addAffine s m r a b sign sel zero
    exact ⟨m', h1, else_words h2.2⟩
  | toBig r a =>
    obtain ⟨m', h1, -, h2⟩ := run_toBig s m r a
    exact ⟨m', h1, else_four h2⟩
  | copy d a n => exact ⟨_, rfl, else_words fun b hb => copyWords_other _ _ _ _ hb⟩
  | store d v => exact ⟨_, rfl, else_wr4 _ _ _⟩

theorem Call.dest_map {α β : Type} (f : α → β) (c : Call α) :
    (c.map f).dest = (f c.dest.1, c.dest.2) := by cases c <;> rfl

theorem Call.dest_uses {c : Call ℕ} {S : List ℕ} (h : c.fits S = true) :
    inside S c.dest.1 c.dest.2 = true := by
  cases c <;> simp only [fits, uses, List.all_cons, Bool.and_eq_true] at h <;> exact h.1.1

theorem wordsOf_append (A B : List (W × ℕ)) : wordsOf (A ++ B) = wordsOf A ++ wordsOf B := by
  simp [wordsOf]

theorem waddr_append {A B : List (W × ℕ)} {w : ℕ} (h : w < 4 * size A) : waddr (A ++ B) w = waddr A w := by
  induction A generalizing w with
  | nil => simp [size] at h
  | cons r A ih =>
    obtain ⟨b, n⟩ := r
    have hs : size ((b, n) :: A) = n + size A := rfl
    rw [hs] at h
    rw [List.cons_append, waddr, waddr]
    split
    · rfl
    · exact ih (by omega)

/-- The words a call writes are in the arrays that hold its first cells. -/
theorem Call.dest_words {A B : List (W × ℕ)} {c : Call ℕ} (h : c.fits ((A ++ B).map Prod.snd) = true)
    (hb : c.dest.1 + c.dest.2 ≤ size A) {b : W} (hm : b ∈ wordsOf [(c.map (addr (A ++ B))).dest]) :
    b ∈ wordsOf A := by
  rw [dest_map, mem_words_one] at hm
  obtain ⟨w, hw, rfl⟩ := hm
  rw [← waddr_inside (dest_uses h) hw, waddr_append (by omega)]
  exact waddr_mem (by omega)

/-! ### Sequences of calls -/

/-- The effect of a sequence of calls on the contents of cells. -/
def sems (cs : List (Call ℕ)) (σ : ℕ → ℕ) : ℕ → ℕ := cs.foldl Call.sem σ

theorem runs_sems {R : List (W × ℕ)} (hA : Apart R) (cs : List (Call ℕ))
    (hc : ∀ c ∈ cs, c.fits (R.map Prod.snd) = true) {m : W → W} {σ : ℕ → ℕ} (h : Holds R m σ)
    (junk : ℕ → St) : ∃ m', runs junk (cs.map (Call.map (addr R))) m = some m' ∧ Holds R m' (sems cs σ) ∧
      Elsewhere R m m' := by
  induction cs generalizing m σ junk with
  | nil => exact ⟨m, rfl, h, fun _ _ => rfl⟩
  | cons c cs ih =>
    obtain ⟨m1, e1, h1, f1⟩ := c.run_sem hA h (hc c (by simp)) (junk 0)
    obtain ⟨m2, e2, h2, f2⟩ := ih (fun c hc' => hc c (by simp [hc'])) h1 fun i => junk (i + 1)
    refine ⟨m2, ?_, h2, fun b hb => (f2 b hb).trans (f1 b hb)⟩
    rw [List.map_cons, runs, e1]
    exact e2

theorem sems_append (a b : List (Call ℕ)) (σ : ℕ → ℕ) : sems (a ++ b) σ = sems b (sems a σ) :=
  List.foldl_append

theorem sems_cons (c : Call ℕ) (b : List (Call ℕ)) (σ : ℕ → ℕ) : sems (c :: b) σ = sems b (c.sem σ) := by
  unfold sems
  rw [List.foldl_cons]

theorem runs_append (junk : ℕ → St) (a b : List (Call W)) (m : W → W) : runs junk (a ++ b) m =
    (runs junk a m).bind (runs (fun i => junk (i + a.length)) b) := by
  induction a generalizing junk m with
  | nil => rfl
  | cons c a ih =>
    rw [List.cons_append, runs, runs, Option.bind_assoc]
    congr 1
    funext m'
    rw [ih]
    congr 2

end Verif.X64.P256
