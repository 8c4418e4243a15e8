import Verif.Model.WifHeap
import Verif.Spec.Wiped
import Verif.Lemmas.SerialHeap
/-!
# Lemmas about WIF on the heap (C129)
-/
namespace Verif.Keypair
open Verif.EC Verif.Spec

theorem read_alloc (h : Heap) (b : Bytes) : (h.alloc b).2.read (h.alloc b).1 = b := by simp [Slice.read, Heap.alloc]

/-- Clearing a whole new array. -/
theorem clear_alloc_mem (h : Heap) (b : Bytes) (a : Nat) :
    (clearBytes (h.alloc b).2 (h.alloc b).1).mem a = if a = h.next then zeros b.length else h.mem a := by
  unfold clearBytes Heap.store Heap.alloc
  dsimp only
  by_cases ha : a = h.next
  · simp only [if_pos ha, splice]
    simp [zeros]
  · simp only [if_neg ha]

theorem clear_alloc_next (h : Heap) (b : Bytes) : (clearBytes (h.alloc b).2 (h.alloc b).1).next = h.next + 1 := rfl

theorem mem_zeros {n : Nat} {b : Byte} (h : b ∈ zeros n) : b = 0 := List.eq_of_mem_replicate h

theorem kept_clear_alloc (h : Heap) (b : Bytes) : KeptHeap h (clearBytes (h.alloc b).2 (h.alloc b).1) :=
  ⟨Nat.le_succ _, fun a ha => by rw [clear_alloc_mem, if_neg (by omega)]⟩

theorem wiped_clear_alloc {h0 h : Heap} (k : KeptHeap h0 h) (w : Wiped h0 h) (b : Bytes) :
    Wiped h0 (clearBytes (h.alloc b).2 (h.alloc b).1) := by
  intro a h1 h2 x hx
  rw [clear_alloc_next] at h2
  rw [clear_alloc_mem] at hx
  by_cases ha : a = h.next
  · rw [if_pos ha] at hx; exact mem_zeros hx
  · rw [if_neg ha] at hx; exact w a h1 (by omega) x hx

theorem wiped_refl (h : Heap) : Wiped h h := fun a h1 h2 => absurd h2 (by omega)

/-- From `h` to `h'` only the array `x` has changed, and not its length; there may be new arrays. -/
def Only (x : Nat) (h h' : Heap) : Prop :=
  h.next ≤ h'.next ∧ ∀ a, a < h.next → (a ≠ x → h'.mem a = h.mem a) ∧ (h'.mem a).length = (h.mem a).length

theorem Only.trans {x : Nat} {h h' h'' : Heap} (f : Only x h h') (g : Only x h' h'') : Only x h h'' :=
  ⟨f.1.trans g.1, fun a ha => ⟨fun hx => by rw [(g.2 a (ha.trans_le f.1)).1 hx, (f.2 a ha).1 hx],
    by rw [(g.2 a (ha.trans_le f.1)).2, (f.2 a ha).2]⟩⟩

/-- Storing into the array `x`, or into one that was not there. -/
theorem Only.store {x : Nat} {h h' : Heap} (f : Only x h h') {arr off : Nat} {b : Bytes} (hx : arr = x ∨ h.next ≤ arr)
    (hl : off + b.length ≤ (h'.mem arr).length) : Only x h (h'.store arr off b) := by
  refine ⟨f.1, fun a ha => ?_⟩
  by_cases e : a = arr
  · subst e
    rw [store_mem_eq, splice_length _ _ _ hl]
    exact ⟨fun hn => absurd hx (by omega), (f.2 a ha).2⟩
  · rw [store_mem_ne _ _ _ _ _ e]
    exact f.2 a ha

theorem Only.alloc {x : Nat} {h h' : Heap} (f : Only x h h') (b : Bytes) : Only x h (h'.alloc b).1 := by
  refine ⟨f.1.trans (Nat.le_succ _), fun a ha => ?_⟩
  have e : (h'.alloc b).1.mem a = h'.mem a := if_neg (by have := f.1; omega)
  rw [e]
  exact f.2 a ha

theorem Only.refl (x : Nat) (h : Heap) : Only x h h := ⟨le_rfl, fun _ _ => ⟨fun _ => rfl, rfl⟩⟩

theorem Only.valid {x : Nat} {h h' : Heap} (f : Only x h h') {s : Slice} (hs : s.Valid h) : s.Valid h' :=
  ⟨hs.1.trans_le f.1, hs.2.1, by rw [(f.2 _ hs.1).2]; exact hs.2.2⟩

theorem Only.kept {x : Nat} {h0 h h' : Heap} (f : Only x h h') (k : KeptHeap h0 h) (hx : h0.next ≤ x) : KeptHeap h0 h' :=
  ⟨k.1.trans f.1, fun a ha => by rw [(f.2 a (ha.trans_le k.1)).1 (by omega)]; exact k.2 a ha⟩

/-- `append` to a slice of the array `x` or of a new array. -/
theorem append_facts {x : Nat} {h h' : Heap} (f : Only x h h') {s : Slice} (hs : s.Valid h')
    (hx : s.arr = x ∨ h.next ≤ s.arr) (b : Bytes) :
    Only x h (h'.append s b).1 ∧ (h'.append s b).2.Valid (h'.append s b).1 ∧
      ((h'.append s b).2.arr = x ∨ h.next ≤ (h'.append s b).2.arr) ∧
      (h'.append s b).2.read (h'.append s b).1 = s.read h' ++ b := by
  unfold Heap.append
  split
  · rename_i hc
    have hl : s.off + s.len + b.length ≤ (h'.mem s.arr).length := by have := hs.2.2; omega
    refine ⟨f.store hx hl, ⟨hs.1, hc, ?_⟩, hx, read_store_append b hs hc⟩
    show s.off + s.cap ≤ ((h'.store s.arr _ b).mem s.arr).length
    rw [store_mem_eq, splice_length _ _ _ hl]
    exact hs.2.2
  · exact ⟨f.alloc _, (fresh_alloc h' _).1, .inr f.1, read_alloc h' _⟩

theorem read_eq_zeros {h : Heap} {s : Slice} (hs : s.Valid h)
    (hz : ∀ i, i < s.len → (h.mem s.arr)[s.off + i]? = some 0) : s.read h = zeros s.len := by
  apply List.ext_getElem?
  intro i
  unfold Slice.read zeros
  by_cases hi : i < s.len
  · rw [List.getElem?_take, if_pos hi, List.getElem?_drop, hz i hi, List.getElem?_replicate, if_pos hi]
  · rw [List.getElem?_take, if_neg hi, List.getElem?_replicate, if_neg hi]

/-- Clearing two slices, one after the other: the first one is zero afterwards. -/
theorem clear_two {h : Heap} {s t : Slice} (hs : s.Valid h) (ht : t.Valid h) :
    s.read (clearBytes t (clearBytes s h)) = zeros s.len := by
  have hls : s.off + (zeros s.len).length ≤ (h.mem s.arr).length := by
    have := hs.2.1; have := hs.2.2; simp only [zeros, List.length_replicate]; omega
  have e1 : ((clearBytes s h).mem s.arr).length = (h.mem s.arr).length := by
    unfold clearBytes
    rw [store_mem_eq, splice_length _ _ _ hls]
  have z1 : ∀ i, i < s.len → ((clearBytes s h).mem s.arr)[s.off + i]? = some 0 := by
    intro i hi
    unfold clearBytes
    rw [store_mem_eq, getElem?_splice _ _ _ hls, if_pos (by simp only [zeros, List.length_replicate]; omega)]
    simp [zeros, List.getElem?_replicate, hi]
  by_cases ha : t.arr = s.arr
  · have hlt : t.off + (zeros t.len).length ≤ ((clearBytes s h).mem s.arr).length := by
      have := ht.2.1; have := ht.2.2
      rw [e1, ← ha]; simp only [zeros, List.length_replicate]; omega
    apply read_eq_zeros
    · refine ⟨hs.1, hs.2.1, ?_⟩
      rw [clearBytes, ha, store_mem_eq, splice_length _ _ _ hlt, e1]
      exact hs.2.2
    · intro i hi
      rw [clearBytes, ha, store_mem_eq, getElem?_splice _ _ _ hlt]
      split
      · rename_i hc
        have : s.off + i - t.off < t.len := by simp only [zeros, List.length_replicate] at hc; omega
        simp [zeros, List.getElem?_replicate, this]
      · exact z1 i hi
  · apply read_eq_zeros
    · refine ⟨hs.1, hs.2.1, ?_⟩
      rw [clearBytes, store_mem_ne _ _ _ _ _ (Ne.symm ha), e1]
      exact hs.2.2
    · intro i hi
      rw [clearBytes, store_mem_ne _ _ _ _ _ (Ne.symm ha)]
      exact z1 i hi

theorem Only.clear {x : Nat} {h h' : Heap} (f : Only x h h') {s : Slice} (hs : s.Valid h')
    (hx : s.arr = x ∨ h.next ≤ s.arr) : Only x h (clearBytes s h') :=
  f.store hx (by have := hs.2.1; have := hs.2.2; simp only [zeros, List.length_replicate]; omega)

theorem clear_valid {h : Heap} {s t : Slice} (hs : s.Valid h) (ht : t.Valid h) : t.Valid (clearBytes s h) :=
  ((Only.refl s.arr h).clear hs (.inl rfl)).valid ht

/-- Everything about the second half of `Key2WIF`. -/
theorem key2WIF_tail {h0 h1 : Heap} (k : KeptHeap h0 h1) {data : Slice} {d : Bytes} (c : FreshCopy h0 h1 data d)
    (hl : 34 ≤ d.length) (W : WifExt) :
    let buf := data.sub 1 34
    let h2 := h1.store buf.arr buf.off [0x80]
    let r3 := h2.append buf [0x01]
    let r4 := r3.1.append r3.2 (W.checksum (r3.2.read r3.1))
    let h6 := clearBytes r4.2 (clearBytes data r4.1)
    let b := (0x80 :: (d.drop 2).take 32) ++ [0x01]
    r4.2.read r4.1 = b ++ W.checksum b ∧ Only data.arr h1 h6 ∧ data.read h6 = zeros data.len := by
  intro buf h2 r3 r4 h6 b
  have hlen := c.len
  have hv := c.1
  have hoff : buf.off + ([0x80] : Bytes).length ≤ (h1.mem buf.arr).length := by
    have := hv.2.1; have := hv.2.2
    show data.off + 1 + 1 ≤ (h1.mem data.arr).length
    omega
  have o2 : Only data.arr h1 h2 := (Only.refl _ _).store (.inl rfl) hoff
  have v2 : buf.Valid h2 := o2.valid ⟨hv.1, by show 34 - 1 ≤ data.cap - 1; have := hv.2.1; omega,
    by show data.off + 1 + (data.cap - 1) ≤ (h1.mem data.arr).length; have := hv.2.1; have := hv.2.2; omega⟩
  obtain ⟨o3, v3, x3, e3⟩ := append_facts o2 v2 (.inl rfl) [0x01]
  obtain ⟨o4, v4, x4, e4⟩ := append_facts o3 v3 x3 (W.checksum (r3.2.read r3.1))
  have eb : buf.read h2 = 0x80 :: (d.drop 2).take 32 := by
    apply List.ext_getElem?
    intro i
    have hd : ∀ j, j < data.len → (h1.mem data.arr)[data.off + j]? = d[j]? := by
      intro j hj
      rw [← c.2.2, Slice.read, List.getElem?_take, if_pos hj, List.getElem?_drop]
    show ((((h1.store data.arr (data.off + 1) [0x80]).mem data.arr).drop (data.off + 1)).take (34 - 1))[i]? = _
    rw [store_mem_eq, List.getElem?_take]
    by_cases hi : i < 34 - 1
    · rw [if_pos hi, List.getElem?_drop, getElem?_splice (h1.mem data.arr) (data.off + 1) [0x80] hoff]
      cases i with
      | zero => rw [if_pos ⟨le_rfl, by simp⟩]; simp
      | succ i =>
        rw [if_neg (by simp only [List.length_singleton]; omega), List.getElem?_cons_succ, List.getElem?_take,
          if_pos (by omega), List.getElem?_drop, ← hd _ (by omega)]
        congr 1
        omega
    · rw [if_neg hi, List.getElem?_eq_none]
      simp
      omega
  have e3' : r3.2.read r3.1 = b := by rw [e3, eb]
  refine ⟨by rw [e4, e3'], ?_, clear_two (o4.valid hv) v4⟩
  exact (o4.clear (o4.valid hv) (.inl rfl)).clear (clear_valid (o4.valid hv) v4) x4

end Verif.Keypair
