import Verif.Props.SM3
import Verif.Model.SM3Heap
import Verif.Lemmas.Slice
/-!
# C118: SM3 hashers and the caller's memory

Specification: the abstract hasher that remembers the bytes written since the last reset, together with the
memory, of which `Sum` changes at most the 32 bytes behind its argument.
-/
namespace Verif.Props
open Verif

/-- A call on a hasher, with slices of the caller's memory; or the caller changes their memory. -/
inductive SM3Call where
  | write (p : Slice)
  | sum (inp : Slice)
  | reset
  | caller (f : Heap → Heap)

/-- What a call returns. -/
inductive SM3Ret where
  | wrote (n : Nat)
  | summed (r : Res Slice)
  | unit

/-- Running a call on the model of the Go code. -/
def SM3Call.run (s : Heap × SM3.Digest) : SM3Call → (Heap × SM3.Digest) × SM3Ret
  | .write p => ((s.1, (SM3.writeAt s.1 s.2 p).1), .wrote (SM3.writeAt s.1 s.2 p).2)
  | .sum inp =>
    match SM3.sumAt s.1 s.2 inp with
    | .ok (h, r) => ((h, s.2), .summed (.ok r))
    | .err m => (s, .summed (.err m))
    | .panic m => (s, .summed (.panic m))
  | .reset => ((s.1, SM3.reset s.2), .unit)
  | .caller f => ((f s.1, s.2), .unit)

/-- The abstract hasher: the bytes written since the last reset, as they were when they were written. -/
def SM3Call.spec (s : Heap × Bytes) : SM3Call → (Heap × Bytes) × SM3Ret
  | .write p => ((s.1, s.2 ++ p.read s.1), .wrote (p.read s.1).length)
  | .sum inp =>
    let r := s.1.append inp (Spec.SM3.hash s.2)
    ((r.1, s.2), .summed (.ok r.2))
  | .reset => ((s.1, []), .unit)
  | .caller f => ((f s.1, s.2), .unit)

/-- Results and memory after each call. -/
def observed {S : Type} (f : Heap × S → SM3Call → (Heap × S) × SM3Ret) :
    Heap × S → List SM3Call → List (SM3Ret × Heap)
  | _, [] => []
  | s, o :: os => ((f s o).2, (f s o).1.1) :: observed f (f s o).1 os

/-- Fewer than 2^61 bytes are written between two resets; `n` were written so far. -/
def SM3Call.Fits : Nat → List SM3Call → Prop
  | _, [] => True
  | n, .write p :: os => n + p.len < 2 ^ 61 ∧ Fits (n + p.len) os
  | _, .reset :: os => Fits 0 os
  | n, _ :: os => Fits n os

theorem read_length_le (h : Heap) (s : Slice) : (s.read h).length ≤ s.len := by
  simp [Slice.read]; omega

theorem C118_from {d : SM3.Digest} {m : Bytes} (hr : SM3.Rep d m) (h : Heap) (ops : List SM3Call) (n : Nat)
    (hn : m.length ≤ n) (hn2 : n < 2 ^ 61) (hf : SM3Call.Fits n ops) :
    observed SM3Call.run (h, d) ops = observed SM3Call.spec (h, m) ops := by
  induction ops generalizing d m h n with
  | nil => rfl
  | cons o os ih =>
    cases o with
    | write p =>
      have hl := read_length_le h p
      have hw : (SM3.write d (p.read h)).2 = (p.read h).length := rfl
      simp only [observed, SM3Call.run, SM3Call.spec, SM3.writeAt]
      rw [ih (SM3.write_rep hr _) h (n + p.len) (by simp; omega) hf.1 hf.2, hw]
    | sum inp =>
      have hs : SM3.sumAt h d inp = .ok (h.append inp (Spec.SM3.hash m)) := by
        rw [SM3.sumAt, SM3.checkSum_eq hr (by omega)]
      simp only [observed, SM3Call.run, SM3Call.spec, hs]
      rw [ih hr _ n hn hn2 hf]
    | reset =>
      simp only [observed, SM3Call.run, SM3Call.spec]
      rw [ih (SM3.rep_reset hr) h 0 (by simp) (by decide) hf]
    | caller f =>
      simp only [observed, SM3Call.run, SM3Call.spec]
      rw [ih hr _ n hn hn2 hf]

/-- **C118** For every history of calls on a new hasher, mixed with any changes that the caller makes to their
memory: results and memory are those of the abstract hasher. So the hasher keeps no reference to the slices it
was given (changing them after `Write` has no effect), and only `Sum` changes memory. The bound is on what is
written between two resets. -/
theorem C118_history (h : Heap) (ops : List SM3Call) (hf : SM3Call.Fits 0 ops) :
    observed SM3Call.run (h, SM3.new) ops = observed SM3Call.spec (h, []) ops :=
  C118_from SM3.rep_new h ops 0 (by simp) (by decide) hf

/-- A history that meets the hypothesis: the slice is overwritten between two calls. -/
example : SM3Call.Fits 0 [.write ⟨0, 0, 5, 9⟩, .caller (fun h => h.store 0 0 [1, 2]), .sum ⟨0, 0, 0, 9⟩, .reset,
    .write ⟨0, 3, 2, 2⟩, .sum ⟨0, 0, 2, 3⟩] := by
  simp [SM3Call.Fits]

/-- **C118** What `Sum` does to memory (`append` of a digest `b`). The result reads as the argument followed by
the digest. If the argument has 32 bytes of spare capacity the result shares its memory, and of all memory
only these 32 bytes are changed; otherwise the result is a new array and nothing else changes. -/
theorem C118_sum (h : Heap) (m : Bytes) (inp : Slice) (hv : inp.Valid h) :
    let r := h.append inp (Spec.SM3.hash m)
    r.2.read r.1 = inp.read h ++ Spec.SM3.hash m ∧ r.2.Valid r.1 ∧
    (if inp.len + 32 ≤ inp.cap then
      r.2 = { inp with len := inp.len + 32 } ∧
      (∀ a, a ≠ inp.arr → r.1.mem a = h.mem a) ∧
      (∀ i, ¬ (inp.off + inp.len ≤ i ∧ i < inp.off + inp.len + 32) →
        (r.1.mem inp.arr)[i]? = (h.mem inp.arr)[i]?)
    else
      r.2.arr = h.next ∧ ∀ a, a ≠ h.next → r.1.mem a = h.mem a) := by
  obtain ⟨h1, h2, h3⟩ := hv
  have hl := SM3.spec_hash_length m
  generalize Spec.SM3.hash m = b at hl
  dsimp only
  unfold Heap.append
  by_cases hc : inp.len + b.length ≤ inp.cap
  · have hc' : inp.len + 32 ≤ inp.cap := by omega
    have hfit : inp.off + inp.len + b.length ≤ (h.mem inp.arr).length := by omega
    rw [if_pos hc, if_pos hc', hl]
    refine ⟨?_, ⟨h1, by simpa using hc', ?_⟩, rfl, fun a ha => store_mem_ne _ _ _ _ _ ha, fun i hi => ?_⟩
    · unfold Slice.read
      simp only [store_mem_eq, splice]
      rw [List.append_assoc, List.drop_append_of_le_length (by simp; omega)]
      have ht : ((h.mem inp.arr).take (inp.off + inp.len)).drop inp.off
          = ((h.mem inp.arr).drop inp.off).take inp.len := by
        rw [List.drop_take]; congr 1; omega
      have htl : (((h.mem inp.arr).drop inp.off).take inp.len).length = inp.len := by simp; omega
      rw [ht, ← List.append_assoc, List.take_append_of_le_length (by simp [hl]; omega),
        List.take_of_length_le (by simp [hl]; omega)]
    · simp only [store_mem_eq]
      rw [splice_length _ _ _ hfit]
      exact h3
    · simp only [store_mem_eq]
      rw [getElem?_splice _ _ _ hfit, if_neg (by omega)]
  · have hc' : ¬ inp.len + 32 ≤ inp.cap := by omega
    rw [if_neg hc, if_neg hc']
    refine ⟨?_, ⟨?_, ?_, ?_⟩, rfl, fun a ha => ?_⟩
    · simp only [Heap.alloc, Slice.read, if_true, List.drop_zero]
      exact List.take_of_length_le (by simp)
    · simp [Heap.alloc]
    · simp [Heap.alloc]
    · simp [Heap.alloc]
    · simp [Heap.alloc, ha]

/-- Slices that meet the hypothesis in each case, and the memory afterwards. -/
example : (⟨0, 1, 2, 40⟩ : Slice).Valid ⟨fun _ => zeros 50, 1⟩ ∧ (⟨0, 1, 2, 3⟩ : Slice).Valid ⟨fun _ => zeros 50, 1⟩ := by
  constructor <;> refine ⟨?_, ?_, ?_⟩ <;> simp

/-- **C118** So a digest that was returned in spare capacity is lost when `Sum` is called again with the same
argument: both results are one slice, which reads as the later digest. -/
theorem C118_overwritten (h : Heap) (m1 m2 : Bytes) (inp : Slice) (hv : inp.Valid h)
    (hc : inp.len + 32 ≤ inp.cap) (f : Heap) (s1 s2 : Slice)
    (h1 : (f, s1) = h.append inp (Spec.SM3.hash m1)) :
    ∀ f2, (f2, s2) = f.append inp (Spec.SM3.hash m2) →
      s1 = s2 ∧ s1.read f2 = inp.read h ++ Spec.SM3.hash m2 := by
  intro f2 h2
  have a := C118_sum h m1 inp hv
  rw [← h1] at a
  dsimp only at a
  rw [if_pos hc] at a
  obtain ⟨-, -, a3, a4, a5⟩ := a
  have hlen : (f.mem inp.arr).length = (h.mem inp.arr).length := by
    have := h1
    unfold Heap.append at this
    rw [if_pos (by rw [SM3.spec_hash_length]; exact hc)] at this
    have hf : f = h.store inp.arr (inp.off + inp.len) (Spec.SM3.hash m1) := (Prod.mk.inj this).1
    rw [hf, store_mem_eq, splice_length]
    have := hv.2.2
    rw [SM3.spec_hash_length]; omega
  have hnext : f.next = h.next := by
    have := h1
    unfold Heap.append at this
    rw [if_pos (by rw [SM3.spec_hash_length]; exact hc)] at this
    rw [(Prod.mk.inj this).1]; rfl
  have hvf : inp.Valid f := ⟨by rw [hnext]; exact hv.1, hv.2.1, by rw [hlen]; exact hv.2.2⟩
  have b := C118_sum f m2 inp hvf
  rw [← h2] at b
  dsimp only at b
  rw [if_pos hc] at b
  obtain ⟨b1, -, b3, -, -⟩ := b
  have hs : s1 = s2 := a3.trans b3.symm
  refine ⟨hs, ?_⟩
  rw [hs, b1]
  congr 1
  unfold Slice.read
  apply List.ext_getElem?
  intro i
  rw [List.getElem?_take, List.getElem?_take]
  split
  · rw [List.getElem?_drop, List.getElem?_drop]
    exact a5 _ (by omega)
  · rfl

/-- A case that meets the hypotheses, with two digests that differ. -/
example : (⟨0, 0, 0, 32⟩ : Slice).Valid ⟨fun _ => zeros 32, 1⟩ ∧ (0 : Nat) + 32 ≤ 32 ∧
    Spec.SM3.hash [] ≠ Spec.SM3.hash [1] := by
  refine ⟨⟨?_, ?_, ?_⟩, by decide, ?_⟩
  · simp
  · simp
  · simp
  · intro e
    have e2 := congrArg Res.ok e
    rw [← C01_sm3_sum_conforms [] (by simp), ← C01_sm3_sum_conforms [1] (by simp)] at e2
    revert e2
    decide +kernel

end Verif.Props
