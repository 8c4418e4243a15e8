import Mathlib.Data.Set.Card
/-!
# Counting lists
-/
namespace Verif

/-- The number of lists of `n` elements of a finite set. -/
theorem ncard_lists {α : Type} (S : Finset α) (n : Nat) : {l : List α | l.length = n ∧ ∀ d ∈ l, d ∈ S}.ncard = S.card ^ n := by
  induction n with
  | zero =>
    have : {l : List α | l.length = 0 ∧ ∀ d ∈ l, d ∈ S} = {[]} := by
      ext l
      simp only [Set.mem_ofPred_eq, List.length_eq_zero_iff, Set.mem_singleton_iff]
      constructor
      · exact fun h => h.1
      · rintro rfl; simp
    rw [this, Set.ncard_singleton, pow_zero]
  | succ n ih =>
    have : {l : List α | l.length = n + 1 ∧ ∀ d ∈ l, d ∈ S} =
        (fun q : α × List α => q.1 :: q.2) '' ((S : Set α) ×ˢ {l : List α | l.length = n ∧ ∀ d ∈ l, d ∈ S}) := by
      ext l
      simp only [Set.mem_ofPred_eq, Set.mem_image, Set.mem_prod, Prod.exists]
      constructor
      · rintro ⟨h1, h2⟩
        cases l with
        | nil => simp at h1
        | cons a l =>
          exact ⟨a, l, ⟨h2 a (by simp), by simpa using h1, fun d hd => h2 d (by simp [hd])⟩, rfl⟩
      · rintro ⟨a, l, ⟨h1, h2, h3⟩, rfl⟩
        refine ⟨by simp [h2], fun d hd => ?_⟩
        rcases List.mem_cons.1 hd with rfl | hd
        · exact h1
        · exact h3 d hd
    rw [this, Set.ncard_image_of_injective, Set.ncard_prod, Set.ncard_coe_finset, ih, pow_succ, mul_comm]
    rintro ⟨a, l⟩ ⟨b, l'⟩ h
    simpa using h

end Verif
