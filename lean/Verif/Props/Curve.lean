import Verif.Lemmas.SM2Curve
/-!
# Properties of the SM2 curve object: constants (C51) and initialisation (C58)
-/
namespace Verif.Props
open Verif Verif.Spec Verif.SM2Curve

/-- What `initP256` writes is the curve `Curves.sm2` used in all other models. -/
theorem C51_initP256 : initWrites.foldl (fun g f => f g) {} = fullCurve := initWrites_eq

/-- **C51**: the SM2 constants define a nonsingular curve `y² = x³ - 3x + b` over a prime field; the base
point is a reduced point of it, has order exactly `n`, and `n` is prime. The curve has exactly `n`
points (cofactor 1), and the bytes used for `a` in the identity hash denote `-3`. -/
theorem C51_sm2_curve_sound :
    Curves.sm2.P.Prime ∧ Curves.sm2.N.Prime ∧
    ((4 * (-3) ^ 3 + 27 * (Curves.sm2.B : Int) ^ 2) % Curves.sm2.P ≠ 0) ∧
    Curves.sm2.Gx < Curves.sm2.P ∧ Curves.sm2.Gy < Curves.sm2.P ∧
    OnCurve Curves.sm2 (-3) Curves.sm2.Gx Curves.sm2.Gy ∧
    (∃ G : Pt Curves.sm2 (-3), xy G = (Curves.sm2.Gx, Curves.sm2.Gy) ∧ addOrderOf G = Curves.sm2.N ∧
      ∀ Q : Pt Curves.sm2 (-3), ∃ k < Curves.sm2.N, k • G = Q) ∧
    Nat.card (Pt Curves.sm2 (-3)) = Curves.sm2.N ∧
    (natOfBytes aBytes : Int) = (-3) % Curves.sm2.P := by
  have hord : addOrderOf Curves.sm2G = Curves.sm2.N := by
    rcases (Nat.dvd_prime Curves.sm2_order_prime).1 (addOrderOf_dvd_of_nsmul_eq_zero Curves.sm2_NG) with h | h
    · exact absurd (AddMonoid.addOrderOf_eq_one_iff.1 h) (Affine.ofXY_ne_zero _ _)
    · exact h
  refine ⟨Curves.sm2_prime, Curves.sm2_order_prime, by decide +kernel, by decide +kernel,
    by decide +kernel, Curves.sm2_G_on, ⟨Curves.sm2G, Curves.sm2G_xy, hord, ?_⟩, Curves.sm2_card,
    by decide +kernel⟩
  intro Q
  have : Finite (Pt Curves.sm2 (-3)) := Affine.finite_pt Curves.sm2_ok
  have htop : AddSubgroup.zmultiples Curves.sm2G = ⊤ := by
    apply AddSubgroup.eq_top_of_card_eq
    rw [Nat.card_zmultiples, hord, Curves.sm2_card]
  have hQ : Q ∈ AddSubgroup.zmultiples Curves.sm2G := by rw [htop]; trivial
  rw [← mem_multiples_iff_mem_zmultiples] at hQ
  obtain ⟨k, hk⟩ := hQ
  refine ⟨k % Curves.sm2.N, Nat.mod_lt _ Curves.sm2_order_prime.pos, ?_⟩
  rw [Affine.mod_smul Curves.sm2_card]
  exact hk

/-! ## C58: initialisation under concurrency -/

/-- **C58** (safety): in every interleaving of any number of goroutines calling `SM2P256V1`, whatever a
call returns is the fully initialised curve, and `initP256` was entered at most once. -/
theorem C58_once_safe (s : State) (h : Reachable s) :
    (∀ i g, s.pcs i = some (.done g) → g = fullCurve ∧ s.starts = 1) ∧ s.starts ≤ 1 := by
  obtain ⟨h1, h2, _, h4⟩ := inv_reachable h
  refine ⟨fun i g hg => ?_, h4⟩
  obtain ⟨e, hd⟩ := h1 i _ hg
  exact ⟨e, (h2 hd).2⟩

/-- **C58** (progress): no reachable state is stuck. As long as some call has not returned, some started
goroutine can take a step (creation of goroutines does not count). -/
theorem C58_once_progress (s : State) (h : Reachable s) (i : Nat) (pc : PC) (hi : s.pcs i = some pc)
    (hn : ∀ g, pc ≠ .done g) :
    ∃ j pc' t, s.pcs j = some pc' ∧ (∀ g, pc' ≠ .done g) ∧ Step s t ∧ t.pcs j ≠ s.pcs j := by
  have run : ∀ j pc', s.pcs j = some pc' → (∀ g, pc' ≠ .done g) → pc' ≠ .lock →
      ∃ t, Step s t ∧ t.pcs j ≠ s.pcs j := by
    intro j pc' hj hn' hl
    cases pc' with
    | load =>
      cases hd : s.done with
      | true => exact ⟨_, .loadDone j hj hd, by simp [State.goto, hj]⟩
      | false => exact ⟨_, .loadNot j hj hd, by simp [State.goto, hj]⟩
    | lock => exact absurd rfl hl
    | recheck =>
      cases hd : s.done with
      | true => exact ⟨_, .recheckDone j hj hd, by simp [State.goto, hj]⟩
      | false => exact ⟨_, .recheckNot j hj hd, by simp [State.goto, hj]⟩
    | init k =>
      cases hk : initWrites[k]? with
      | none => exact ⟨_, .initEnd j k hj (List.getElem?_eq_none_iff.1 hk), by simp [State.goto, hj]⟩
      | some f => exact ⟨_, .write j k f hj hk, by simp [State.goto, hj]⟩
    | store => exact ⟨_, .store j hj, by simp [State.goto, hj]⟩
    | unlock => exact ⟨_, .unlock j hj, by simp [State.goto, hj]⟩
    | ret => exact ⟨_, .ret j hj, by simp [State.goto, hj]⟩
    | done g => exact absurd rfl (hn' g)
  by_cases hl : pc = .lock
  · subst hl
    cases ho : s.owner with
    | none => exact ⟨i, _, _, hi, hn, .lock i hi ho, by simp [State.goto, hi]⟩
    | some j =>
      obtain ⟨pc', hj, hcs⟩ := owner_runs h ho
      have : (∀ g, pc' ≠ .done g) ∧ pc' ≠ .lock := by
        rcases hcs with rfl | ⟨k, rfl⟩ | rfl | rfl <;> simp
      obtain ⟨t, ht, hne⟩ := run j pc' hj this.1 this.2
      exact ⟨j, pc', t, hj, this.1, ht, hne⟩
  · obtain ⟨t, ht, hne⟩ := run i pc hi hn hl
    exact ⟨i, pc, t, hi, hn, ht, hne⟩

/-- How many steps a goroutine in this state of its call can still take at most. -/
def stepsLeft : Option PC → Nat
  | none => initWrites.length + 9
  | some .load => initWrites.length + 8
  | some .lock => initWrites.length + 7
  | some .recheck => initWrites.length + 6
  | some (.init k) => initWrites.length - k + 4
  | some .store => 3
  | some .unlock => 2
  | some .ret => 1
  | some (.done _) => 0

theorem step_moves {s t : State} (h : Step s t) :
    ∃ i pc, t.pcs = (fun j => if j = i then some pc else s.pcs j) ∧
      stepsLeft (some pc) < stepsLeft (s.pcs i) := by
  cases h with
  | write i k f hi hk =>
    refine ⟨i, _, rfl, ?_⟩
    rw [hi]
    have := (List.getElem?_eq_some_iff.1 hk).1
    simp only [stepsLeft]
    omega
  | spawn i hi => exact ⟨i, _, rfl, by rw [hi]; simp only [stepsLeft]; omega⟩
  | loadDone i hi _ => exact ⟨i, _, rfl, by rw [hi]; simp only [stepsLeft]; omega⟩
  | loadNot i hi _ => exact ⟨i, _, rfl, by rw [hi]; simp only [stepsLeft]; omega⟩
  | lock i hi _ => exact ⟨i, _, rfl, by rw [hi]; simp only [stepsLeft]; omega⟩
  | recheckDone i hi _ => exact ⟨i, _, rfl, by rw [hi]; simp only [stepsLeft]; omega⟩
  | recheckNot i hi _ => exact ⟨i, _, rfl, by rw [hi]; simp only [stepsLeft]; omega⟩
  | initEnd i k hi _ => exact ⟨i, _, rfl, by rw [hi]; simp only [stepsLeft]; omega⟩
  | store i hi => exact ⟨i, _, rfl, by rw [hi]; simp only [stepsLeft]; omega⟩
  | unlock i hi => exact ⟨i, _, rfl, by rw [hi]; simp only [stepsLeft]; omega⟩
  | ret i hi => exact ⟨i, _, rfl, by rw [hi]; simp only [stepsLeft]; omega⟩

/-- **C58** (termination): in every interleaving of the calls of finitely many goroutines `T` from program start,
the calls take at most 17 steps each on average; and when no step is left, every call has returned, with the fully
initialised curve. -/
theorem C58_once_terminates (T : Finset Nat) (k : Nat) (s : Nat → State) (h0 : s 0 = {})
    (hs : ∀ n < k, Step (s n) (s (n + 1))) (hT : ∀ n ≤ k, ∀ i ∉ T, (s n).pcs i = none) :
    k ≤ 17 * T.card ∧
    ((∀ t, Step (s k) t → ∃ i ∉ T, t.pcs i ≠ none) → ∀ i ∈ T, (s k).pcs i = some (.done fullCurve)) := by
  have hlen : initWrites.length + 9 = 17 := rfl
  have hreach : ∀ n ≤ k, Reachable (s n) := by
    intro n
    induction n with
    | zero => intro _; rw [h0]; exact .start
    | succ n ih => intro hn; exact .step (ih (by omega)) (hs n (by omega))
  constructor
  · have key : ∀ n ≤ k, n + ∑ i ∈ T, stepsLeft ((s n).pcs i) ≤ 17 * T.card := by
      intro n
      induction n with
      | zero =>
        intro _
        rw [h0]
        simp only [stepsLeft, Finset.sum_const, smul_eq_mul, hlen]
        omega
      | succ n ih =>
        intro hn
        obtain ⟨i, pc, ht, hlt⟩ := step_moves (hs n (by omega))
        have hi : i ∈ T := by
          by_contra hi
          have := hT (n + 1) hn i hi
          rw [ht] at this
          simp at this
        have : ∑ j ∈ T, stepsLeft ((s (n + 1)).pcs j) < ∑ j ∈ T, stepsLeft ((s n).pcs j) := by
          apply Finset.sum_lt_sum
          · intro j _
            rw [ht]
            by_cases hj : j = i
            · subst hj; simp only [if_true]; exact hlt.le
            · simp only [if_neg hj]; exact le_rfl
          · exact ⟨i, hi, by rw [ht]; simpa using hlt⟩
        have := ih (by omega)
        omega
    have := key k le_rfl
    omega
  · intro hmax i hi
    have hr := hreach k le_rfl
    cases hp : (s k).pcs i with
    | none =>
      obtain ⟨j, hj, hne⟩ := hmax _ (.spawn i hp)
      have : j ≠ i := fun e => hj (e ▸ hi)
      exact absurd (hT k le_rfl j hj) (by simpa [State.goto, this] using hne)
    | some pc =>
      by_cases hd : ∃ g, pc = .done g
      · obtain ⟨g, rfl⟩ := hd
        rw [((C58_once_safe _ hr).1 i g hp).1]
      · obtain ⟨j, pc', t, hj, _, hst, hne⟩ := C58_once_progress _ hr i pc hp fun g hg => hd ⟨g, hg⟩
        obtain ⟨m, hm, hmne⟩ := hmax t hst
        obtain ⟨l, pcl, ht, _⟩ := step_moves hst
        have hjl : j = l := by
          by_contra h
          rw [ht] at hne
          simp [h] at hne
        have hmj : m ≠ j := by
          rintro rfl
          rw [hT k le_rfl _ hm] at hj
          cases hj
        rw [ht] at hmne
        simp only [← hjl, if_neg hmj] at hmne
        exact absurd (hT k le_rfl m hm) hmne

/-- Two goroutines: the first enters `initP256` and does three assignments, the second finds `done`
unset and waits for the mutex; the first finishes and both return. -/
example : ∃ s, Reachable s ∧ s.pcs 0 = some (.done fullCurve) ∧ s.pcs 1 = some (.done fullCurve) := by
  have e : fullCurve = initWrites.foldl (fun g f => f g) {} := C51_initP256.symm
  have h := Reachable.start
  have h := h.step (.spawn 0 rfl)
  have h := h.step (.spawn 1 rfl)
  have h := h.step (.loadNot 0 rfl rfl)
  have h := h.step (.loadNot 1 rfl rfl)
  have h := h.step (.lock 0 rfl rfl)
  have h := h.step (.recheckNot 0 rfl rfl)
  have h := h.step (.write 0 0 _ rfl rfl)
  have h := h.step (.write 0 1 _ rfl rfl)
  have h := h.step (.write 0 2 _ rfl rfl)
  have h := h.step (.write 0 3 _ rfl rfl)
  have h := h.step (.write 0 4 _ rfl rfl)
  have h := h.step (.write 0 5 _ rfl rfl)
  have h := h.step (.write 0 6 _ rfl rfl)
  have h := h.step (.write 0 7 _ rfl rfl)
  have h := h.step (.initEnd 0 8 rfl (by decide))
  have h := h.step (.store 0 rfl)
  have h := h.step (.unlock 0 rfl)
  have h := h.step (.lock 1 rfl rfl)
  have h := h.step (.recheckDone 1 rfl rfl)
  have h := h.step (.unlock 1 rfl)
  have h := h.step (.ret 1 rfl)
  have h := h.step (.ret 0 rfl)
  exact ⟨_, h, rfl, rfl⟩

end Verif.Props
