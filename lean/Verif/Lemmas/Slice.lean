import Verif.Base.Slice
import Verif.Lemmas.Bytes

namespace Verif

theorem take_none {α : Type} (l : List α) {n m : Nat} (h : n ≤ m) : (l.take n)[m]? = none := by
  rw [List.getElem?_take, if_neg (by omega)]

theorem splice_length (a : Bytes) (off : Nat) (b : Bytes) (h : off + b.length ≤ a.length) :
    (splice a off b).length = a.length := by
  simp [splice]; omega

theorem getElem?_splice (a : Bytes) (off : Nat) (b : Bytes) (h : off + b.length ≤ a.length) (i : Nat) :
    (splice a off b)[i]? = if off ≤ i ∧ i < off + b.length then b[i - off]? else a[i]? := by
  have hl : (a.take off).length = off := by simp; omega
  unfold splice
  rw [List.append_assoc, List.getElem?_append]
  by_cases h1 : i < off
  · rw [if_pos (by omega), if_neg (by omega), List.getElem?_take_of_lt h1]
  · rw [if_neg (by omega), hl, List.getElem?_append]
    by_cases h2 : i < off + b.length
    · rw [if_pos (by omega), if_pos (by omega)]
    · rw [if_neg (by omega), if_neg (by omega), List.getElem?_drop]
      congr 1; omega

/-- Reading back what was stored. -/
theorem read_store_self (h : Heap) (arr off : Nat) (b : Bytes) (cap : Nat)
    (hv : off + b.length ≤ (h.mem arr).length) :
    Slice.read (h.store arr off b) ⟨arr, off, b.length, cap⟩ = b := by
  have hl : ((h.mem arr).take off).length = off := by simp; omega
  simp only [Slice.read, Heap.store, if_true, splice]
  rw [List.append_assoc, List.drop_left' hl, List.take_left' rfl]

theorem store_mem_ne (h : Heap) (arr off : Nat) (b : Bytes) (i : Nat) (hi : i ≠ arr) :
    (h.store arr off b).mem i = h.mem i := by simp [Heap.store, hi]

theorem store_mem_eq (h : Heap) (arr off : Nat) (b : Bytes) :
    (h.store arr off b).mem arr = splice (h.mem arr) off b := by simp [Heap.store]

end Verif
