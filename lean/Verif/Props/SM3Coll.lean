import Verif.Props.SM3
import Mathlib.Data.Fintype.BigOperators
import Mathlib.Data.Fintype.Pigeonhole
/-!
# C123: a collision of SM3 shows a collision of its compression function
-/
namespace Verif.Props

open Verif.Spec.SM3 (CF IV pad blocks)

/-- Two lists of blocks with the same result: going back from the end, either the steps differ somewhere, or one list
is the end of the other. -/
theorem md_back {S B : Type} (f : S → B → S) (a : S) : ∀ xs ys : List B,
    xs.foldr (fun b v => f v b) a = ys.foldr (fun b v => f v b) a →
    (∃ p x xs' y ys', xs = p ++ x :: xs' ∧ ys = p ++ y :: ys' ∧
      (xs'.foldr (fun b v => f v b) a, x) ≠ (ys'.foldr (fun b v => f v b) a, y) ∧
      f (xs'.foldr (fun b v => f v b) a) x = f (ys'.foldr (fun b v => f v b) a) y) ∨ xs <+: ys ∨ ys <+: xs
  | [], ys, _ => .inr (.inl (List.nil_prefix))
  | x :: xs, [], _ => .inr (.inr (List.nil_prefix))
  | x :: xs, y :: ys, h => by
    by_cases e : (xs.foldr (fun b v => f v b) a, x) = (ys.foldr (fun b v => f v b) a, y)
    · obtain ⟨e1, rfl⟩ := Prod.mk.inj e
      rcases md_back f a xs ys e1 with ⟨p, x', xs', y', ys', rfl, rfl, h1, h2⟩ | h1 | h1
      · exact .inl ⟨x :: p, x', xs', y', ys', rfl, rfl, h1, h2⟩
      · exact .inr (.inl (List.cons_prefix_cons.mpr ⟨rfl, h1⟩))
      · exact .inr (.inr (List.cons_prefix_cons.mpr ⟨rfl, h1⟩))
    · exact .inl ⟨[], x, xs, y, ys, rfl, rfl, e, h⟩

/-- The same, forwards. -/
theorem md_collision {S B : Type} (f : S → B → S) (a : S) (xs ys : List B) (h : xs.foldl f a = ys.foldl f a) :
    (∃ pre x pre' y tail, xs = pre ++ x :: tail ∧ ys = pre' ++ y :: tail ∧ (pre.foldl f a, x) ≠ (pre'.foldl f a, y) ∧
      f (pre.foldl f a) x = f (pre'.foldl f a) y) ∨ xs <:+ ys ∨ ys <:+ xs := by
  have e : ∀ l : List B, l.reverse.foldr (fun b v => f v b) a = l.foldl f a := fun l => by rw [List.foldr_reverse]
  rcases md_back f a xs.reverse ys.reverse (by rw [e, e, h]) with ⟨p, x, xs', y, ys', h1, h2, h3, h4⟩ | h1 | h1
  · refine .inl ⟨xs'.reverse, x, ys'.reverse, y, p.reverse, ?_, ?_, ?_, ?_⟩
    · rw [← xs.reverse_reverse, h1]; simp
    · rw [← ys.reverse_reverse, h2]; simp
    · rw [← e, ← e, List.reverse_reverse, List.reverse_reverse]; exact h3
    · rw [← e, ← e, List.reverse_reverse, List.reverse_reverse]; exact h4
  · exact .inr (.inl (List.reverse_prefix.mp h1))
  · exact .inr (.inr (List.reverse_prefix.mp h1))

theorem blocks_flatten : ∀ (n : Nat) (p : Bytes), p.length = 64 * n → (blocks p).flatten = p
  | 0, p, h => by
    have : p = [] := List.length_eq_zero_iff.mp (by omega)
    subst this
    rfl
  | n + 1, p, h => by
    rw [SM3.blocks_cons p (by omega), List.flatten_cons, blocks_flatten n (p.drop 64) (by simp; omega),
      List.take_append_drop]

theorem pad_length (m : Bytes) : ∃ n, (pad m).length = 64 * n := by
  refine ⟨(pad m).length / 64, ?_⟩
  unfold pad
  simp only [List.length_append, List.length_cons, List.length_nil, beFix_length, zeros, List.length_replicate]
  omega

theorem pad_suffix {m m' : Bytes} (h : m.length < 2 ^ 61) (h' : m'.length < 2 ^ 61) (hs : pad m <:+ pad m') : m = m' := by
  have key : ∀ x : Bytes, beFix 8 (8 * x.length) = (pad x).drop ((pad x).length - 8) := fun x => by
    unfold pad
    rw [List.drop_append_of_le_length (by simp; omega), List.drop_eq_nil_of_le (by simp; omega), List.nil_append]
  obtain ⟨t, ht⟩ := hs
  have hl : (pad m).length ≥ 8 := by simp [pad]; omega
  have e : beFix 8 (8 * m.length) = beFix 8 (8 * m'.length) := by
    rw [key, key, ← ht, List.length_append, List.drop_append]
    have : List.drop (t.length + (pad m).length - 8) t = [] := List.drop_eq_nil_of_le (by omega)
    rw [this, List.nil_append]
    congr 1
    omega
  have hm : m.length = m'.length := by
    have := beFix_inj (by omega) (by omega) e
    omega
  have ht0 : t = [] := by
    have := congrArg List.length ht
    rw [List.length_append] at this
    have e2 : (pad m).length = (pad m').length := by
      unfold pad
      simp [hm, zeros]
    exact List.length_eq_zero_iff.mp (by omega)
  subst ht0
  have := congrArg (List.take m.length) ht
  unfold pad at this
  simpa [hm] using this

theorem CF_length (v : List Spec.SM3.Word) (b : Bytes) (h : v.length = 8) : (CF v b).length = 8 := by
  simp [CF, Spec.SM3.Reg.toWords, h]

theorem foldl_CF_length (bs : List Bytes) : ∀ v : List Spec.SM3.Word, v.length = 8 → (bs.foldl CF v).length = 8 := by
  induction bs with
  | nil => exact fun v h => h
  | cons b bs ih => exact fun v h => ih _ (CF_length v b h)

theorem words_inj : ∀ v w : List Spec.SM3.Word, v.length = w.length →
    (v.flatMap fun x => beFix 4 x.toNat) = (w.flatMap fun x => beFix 4 x.toNat) → v = w
  | [], [], _, _ => rfl
  | x :: v, y :: w, hl, h => by
    rw [List.flatMap_cons, List.flatMap_cons] at h
    obtain ⟨h1, h2⟩ := List.append_inj h (by simp)
    have e := beFix_inj (by have := x.isLt; omega) (by have := y.isLt; omega) h1
    rw [BitVec.eq_of_toNat_eq e, words_inj v w (by simpa using hl) h2]

/-- C123: if two different messages have the same digest, then somewhere in the two computations the compression function
was applied to different arguments with the same result; from there on the blocks are the same. The position can be
found by going back from the last block, so whoever knows a collision of SM3 knows a collision of the compression
function. -/
theorem C123_collision (m m' : Bytes) (h : m.length < 2 ^ 61) (h' : m'.length < 2 ^ 61) (hne : m ≠ m')
    (hs : SM3.sumBytes m = SM3.sumBytes m') :
    ∃ pre b pre' b' tail, blocks (pad m) = pre ++ b :: tail ∧ blocks (pad m') = pre' ++ b' :: tail ∧
      (pre.foldl CF IV, b) ≠ (pre'.foldl CF IV, b') ∧ CF (pre.foldl CF IV) b = CF (pre'.foldl CF IV) b' := by
  rw [C01_sm3_sum_conforms m h, C01_sm3_sum_conforms m' h'] at hs
  injection hs with hs
  have hw := words_inj _ _ ((foldl_CF_length _ IV rfl).trans (foldl_CF_length _ IV rfl).symm) hs
  obtain ⟨n, hn⟩ := pad_length m
  obtain ⟨n', hn'⟩ := pad_length m'
  have fl : ∀ xs ys : List Bytes, xs <:+ ys → xs.flatten <:+ ys.flatten := by
    rintro xs ys ⟨t, rfl⟩
    rw [List.flatten_append]
    exact List.suffix_append _ _
  rcases md_collision CF IV _ _ hw with hc | hc | hc
  · exact hc
  · have := fl _ _ hc
    rw [blocks_flatten n _ hn, blocks_flatten n' _ hn'] at this
    exact absurd (pad_suffix h h' this) hne
  · have := fl _ _ hc
    rw [blocks_flatten n _ hn, blocks_flatten n' _ hn'] at this
    exact absurd (pad_suffix h' h this).symm hne

/-- Pigeonhole: a function with results of 32 bytes takes the same value on two different strings of 33 bytes. -/
theorem collide33 (f : Bytes → Bytes) (hf : ∀ m, (f m).length = 32) :
    ∃ m m' : Bytes, m.length = 33 ∧ m'.length = 33 ∧ m ≠ m' ∧ f m = f m' := by
  have hc : Fintype.card (Fin 32 → Fin 256) < Fintype.card (Fin 33 → Fin 256) := by
    rw [Fintype.card_fun, Fintype.card_fun, Fintype.card_fin, Fintype.card_fin, Fintype.card_fin]
    exact Nat.pow_lt_pow_right (by decide) (by decide)
  let msg : (Fin 33 → Fin 256) → Bytes := fun g => List.ofFn fun i => BitVec.ofNat 8 (g i)
  let dig : (Fin 33 → Fin 256) → (Fin 32 → Fin 256) := fun g i => ((f (msg g)).getD i 0).toFin
  obtain ⟨g, g', hne, he⟩ := Fintype.exists_ne_map_eq_of_card_lt dig hc
  have hl : ∀ g, (msg g).length = 33 := fun g => by simp [msg]
  refine ⟨msg g, msg g', hl g, hl g', fun e => hne ?_, ?_⟩
  · have := List.ofFn_inj.mp e
    funext i
    have h1 := congrArg BitVec.toNat (congrFun this i)
    simp only [BitVec.toNat_ofNat] at h1
    have := (g i).isLt
    have := (g' i).isLt
    exact Fin.ext (by omega)
  · refine List.ext_getElem (by rw [hf, hf]) fun i h1 h2 => ?_
    have h3 := h1
    rw [hf] at h3
    have := congrFun he ⟨i, h3⟩
    simp only [dig, List.getD_eq_getElem?_getD, List.getElem?_eq_getElem h1, List.getElem?_eq_getElem h2,
      Option.getD_some] at this
    exact BitVec.eq_of_toFin_eq this

/-- Nobody knows two such messages, but they exist: there are more messages of 33 bytes than digests. -/
example : ∃ m m' : Bytes, m.length < 2 ^ 61 ∧ m'.length < 2 ^ 61 ∧ m ≠ m' ∧ SM3.sumBytes m = SM3.sumBytes m' := by
  obtain ⟨m, m', h, h', hne, e⟩ := collide33 Spec.SM3.hash SM3.spec_hash_length
  refine ⟨m, m', by omega, by omega, hne, ?_⟩
  rw [C01_sm3_sum_conforms _ (by omega), C01_sm3_sum_conforms _ (by omega), e]

end Verif.Props
