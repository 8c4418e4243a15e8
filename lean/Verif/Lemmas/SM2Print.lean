import Verif.Model.SM2Print
import Verif.Spec.Agree
import Verif.Lemmas.SM2Enc
/-! # Lemmas about the output of `sm3kdf` -/
namespace Verif.SM2
open Verif.Spec

/-- The lines `0, …, k - 1`. -/
def linesOf (len zLen k : Nat) : List Line := (List.range k).map fun i => ⟨len, zLen, i⟩

theorem kdfScan_snd (zLen pLen : Nat) (pp : Bytes) : ∀ i, (kdfScan zLen pLen i pp).2 = (pp.take (zLen - i)).any (· ≠ 0) := by
  induction pp with
  | nil => intro i; simp [kdfScan]
  | cons b bs ih =>
    intro i
    unfold kdfScan
    by_cases h : i < zLen
    · rw [if_pos h, show zLen - i = (zLen - (i + 1)) + 1 by omega, List.take_succ_cons, List.any_cons]
      by_cases hb : b ≠ 0
      · rw [if_pos hb, decide_eq_true hb]; rfl
      · rw [if_neg hb, decide_eq_false hb]
        dsimp only
        rw [ih (i + 1)]; rfl
    · rw [if_neg h, show zLen - i = 0 by omega]; rfl

theorem kdfScan_fst (zLen pLen : Nat) (pp : Bytes) : ∀ i, (kdfScan zLen pLen i pp).1 =
    (List.range' i (min ((pp.takeWhile (· = 0)).length + 1) (min (zLen - i) pp.length))).map
      fun j => ⟨pLen, zLen, j⟩ := by
  induction pp with
  | nil => intro i; simp [kdfScan]
  | cons b bs ih =>
    intro i
    unfold kdfScan
    by_cases h : i < zLen
    · rw [if_pos h]
      by_cases hb : b ≠ 0
      · rw [if_pos hb, List.takeWhile_cons_of_neg (by simpa using hb)]
        rw [show min (([] : Bytes).length + 1) (min (zLen - i) (b :: bs).length) = 1 by
          simp only [List.length_nil, List.length_cons]; omega]
        rfl
      · rw [if_neg hb, List.takeWhile_cons_of_pos (by simpa using hb)]
        dsimp only
        rw [ih (i + 1)]
        simp only [List.length_cons]
        rw [show min ((bs.takeWhile (· = 0)).length + 1 + 1) (min (zLen - i) (bs.length + 1))
          = min ((bs.takeWhile (· = 0)).length + 1) (min (zLen - (i + 1)) bs.length) + 1 by omega]
        rfl
    · rw [if_neg h, show zLen - i = 0 by omega]; simp

theorem sm3kdfOut_snd (z : Bytes) (n : Nat) : (sm3kdfOut z n).2 = sm3kdf z n := by
  unfold sm3kdfOut sm3kdf kdfCheck
  dsimp only
  rw [kdfScan_snd]
  rfl

theorem kdfLoop_length (z : Bytes) (hz : z.length < 2 ^ 60) (n : Nat) : (kdfLoop z n 1 n []).length = n := by
  rw [kdfLoop_eq z hz n 1 n [] le_rfl]
  have := kdf_length z n
  unfold SM2.kdf at this
  simpa only [List.nil_append, Nat.add_comm 1] using this

theorem sm3kdfOut_fst (z : Bytes) (hz : z.length < 2 ^ 60) (n : Nat) : (sm3kdfOut z n).1 = linesOf n z.length
    (min (((kdfLoop z n 1 n []).takeWhile (· = 0)).length + 1) (min z.length n)) := by
  unfold sm3kdfOut linesOf
  dsimp only
  rw [kdfScan_fst, kdfLoop_length z hz, List.range_eq_range']
  rfl

theorem takeWhile_all {p : Byte → Bool} (t : Bytes) : (∃ a ∈ t, p a = false) → (t.takeWhile p).length < t.length := by
  induction t with
  | nil => simp
  | cons b t ih =>
    rintro ⟨a, ha, hp⟩
    rcases hb : p b with _ | _
    · rw [List.takeWhile_cons_of_neg (by simp [hb])]; simp
    · rw [List.takeWhile_cons_of_pos hb, List.length_cons, List.length_cons]
      refine Nat.succ_lt_succ (ih ⟨a, ?_, hp⟩)
      rcases List.mem_cons.1 ha with rfl | h
      · rw [hb] at hp; cases hp
      · exact h

theorem takeWhile_take_lt {p : Byte → Bool} (n : Nat) : ∀ t : Bytes, (∃ a ∈ t.take n, p a = false) →
    (t.takeWhile p).length < n := by
  induction n with
  | zero => simp
  | succ n ih =>
    intro t h
    cases t with
    | nil => simp at h
    | cons b t =>
      rcases hb : p b with _ | _
      · rw [List.takeWhile_cons_of_neg (by simp [hb])]; simp
      · rw [List.takeWhile_cons_of_pos hb, List.length_cons]
        refine Nat.succ_lt_succ (ih t ?_)
        obtain ⟨a, ha, hp⟩ := h
        refine ⟨a, ?_, hp⟩
        rw [List.take_succ_cons] at ha
        rcases List.mem_cons.1 ha with rfl | h
        · rw [hb] at hp; cases hp
        · exact h

/-- The lines for a mask that is used. -/
theorem sm3kdfOut_some (z : Bytes) (hz : z.length < 2 ^ 60) (n : Nat) (t : Bytes) (h : sm3kdf z n = some t) :
    t.length = n ∧ (sm3kdfOut z n).1 = linesOf n z.length ((t.takeWhile (· = 0)).length + 1) := by
  unfold sm3kdf at h
  dsimp only at h
  split_ifs at h with hc
  cases h
  have hl := kdfLoop_length z hz n
  refine ⟨hl, ?_⟩
  rw [sm3kdfOut_fst z hz]
  congr 1
  unfold kdfCheck at hc
  obtain ⟨a, ha, hp⟩ := List.any_eq_true.1 hc
  have h1 := takeWhile_take_lt (p := fun x => decide (x = 0)) z.length _ ⟨a, ha, by simpa using hp⟩
  have h2 := takeWhile_all (p := fun x => decide (x = 0)) _ ⟨a, List.mem_of_mem_take ha, by simpa using hp⟩
  omega

theorem takeWhile_eq_length {p : Byte → Bool} (n : Nat) : ∀ t : Bytes, (∀ a ∈ t.take n, p a = true) →
    min n t.length ≤ (t.takeWhile p).length := by
  induction n with
  | zero => simp
  | succ n ih =>
    intro t h
    cases t with
    | nil => simp
    | cons b t =>
      rw [List.take_succ_cons] at h
      rw [List.takeWhile_cons_of_pos (h b (by simp)), List.length_cons, List.length_cons]
      have := ih t (fun a ha => h a (by simp [ha]))
      omega

/-- The lines for a mask that is rejected. -/
theorem sm3kdfOut_none (z : Bytes) (hz : z.length < 2 ^ 60) (n : Nat) (h : sm3kdf z n = none) :
    (sm3kdfOut z n).1 = linesOf n z.length (min z.length n) := by
  unfold sm3kdf at h
  dsimp only at h
  split_ifs at h with hc
  rw [sm3kdfOut_fst z hz]
  congr 1
  unfold kdfCheck at hc
  have hl := kdfLoop_length z hz n
  have := takeWhile_eq_length (p := fun x => decide (x = 0)) z.length (kdfLoop z n 1 n []) (by
    intro a ha
    by_contra hn
    exact hc (List.any_eq_true.2 ⟨a, ha, by simpa using hn⟩))
  omega

theorem agree_xor : ∀ (d t : Bytes), d.length = t.length →
    agree (List.zipWith (· ^^^ ·) d t) d = (t.takeWhile (· = 0)).length ∧
    agree d (List.zipWith (· ^^^ ·) d t) = (t.takeWhile (· = 0)).length := by
  intro d
  induction d with
  | nil => intro t h; cases t with
    | nil => exact ⟨rfl, rfl⟩
    | cons => cases h
  | cons x d ih =>
    intro t h
    cases t with
    | nil => cases h
    | cons y t =>
      have ih := ih t (Nat.succ.inj h)
      rw [List.zipWith_cons_cons]
      unfold agree
      by_cases hy : y = 0
      · subst hy
        rw [if_pos (by simp), if_pos (by simp), List.takeWhile_cons_of_pos (by simp), ih.1, ih.2]
        exact ⟨rfl, rfl⟩
      · have hne : x ^^^ y ≠ x := fun he => hy (by
          have := congrArg (x ^^^ ·) he
          simpa [← BitVec.xor_assoc] using this)
        rw [if_neg hne, if_neg (Ne.symm hne), List.takeWhile_cons_of_neg (by simpa using hy)]
        exact ⟨rfl, rfl⟩

theorem putRight_ok {dst b : Bytes} {stop n : Nat} (h : putRight dst stop n = .ok b) (hs : stop ≤ dst.length) :
    b.length = dst.length := by
  unfold putRight at h
  split_ifs at h with hb
  cases h
  exact SM3.goCopyAt_length _ _ _ (by omega)

theorem putRight_not_err {dst : Bytes} {stop n : Nat} {m : String} : putRight dst stop n ≠ .err m := by
  unfold putRight
  split_ifs <;> simp

theorem putTwo_ok {dst b : Bytes} {x y : Nat} (hs : 64 ≤ dst.length)
    (h : ((putRight dst 32 x).bind fun b => putRight b 64 y) = .ok b) : b.length = dst.length := by
  cases h1 : putRight dst 32 x with
  | ok b1 =>
    rw [h1, Res.bind_ok] at h
    have e1 := putRight_ok h1 (by omega)
    rw [putRight_ok h (by omega), e1]
  | err m => rw [h1] at h; cases h
  | panic m => rw [h1] at h; cases h

theorem putTwo_not_err {dst : Bytes} {x y : Nat} {m : String} :
    ((putRight dst 32 x).bind fun b => putRight b 64 y) ≠ .err m := by
  cases h1 : putRight dst 32 x with
  | ok b1 => rw [Res.bind_ok]; exact putRight_not_err
  | err m => exact absurd h1 putRight_not_err
  | panic m => intro h; cases h

theorem pointBuf_length {x y : Nat} {b : Bytes} (h : pointBuf x y = .ok b) : b.length = 64 := by
  have := putTwo_ok (dst := zeros 64) (by simp [zeros]) h
  rw [this]; simp [zeros]

/-- After `pointBuf` the hash cannot fail. -/
theorem macOf_of_pointBuf {x y : Nat} {b : Bytes} (h : pointBuf x y = .ok b) (d : Bytes) : ∃ c, macOf x y d = .ok c := by
  have hx : ¬ byteLen x > 32 := by
    intro hx
    unfold pointBuf putRight at h
    rw [if_pos hx] at h
    cases h
  unfold macOf
  dsimp only [bind, pure]
  have h1 : putRight (zeros (32 + d.length + 32)) 32 x
      = .ok (SM3.goCopyAt (zeros (32 + d.length + 32)) (32 - byteLen x) (bytesOfNat x)).1 := by
    unfold putRight; rw [if_neg hx]
  rw [h1, Res.bind_ok]
  exact ⟨_, rfl⟩

theorem goCopyAt_drop {dst src : Bytes} {off : Nat} (h : dst.length = off + src.length) :
    (SM3.goCopyAt dst off src).1.drop off = src := by
  simp only [SM3.goCopyAt]
  rw [show min (dst.length - off) src.length = src.length by omega, List.take_length, ← h, List.drop_length,
    List.append_nil, List.drop_left' (by rw [List.length_take]; omega)]

end Verif.SM2
