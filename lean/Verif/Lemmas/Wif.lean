import Verif.Model.Wif
import Verif.Lemmas.Bytes
import Mathlib.Data.Nat.Digits.Lemmas
namespace Verif.Keypair

theorem mapM_eq_some_of {α β : Type} (f : α → Option β) (g : β → α) (l : List β)
    (h : ∀ x ∈ l, f (g x) = some x) : (l.map g).mapM f = some l := by
  induction l with
  | nil => rfl
  | cons x xs ih =>
    rw [List.map_cons, List.mapM_cons, h x (by simp), ih fun y hy => h y (by simp [hy])]
    rfl

theorem decDigit_ofNat {d : Nat} (h : d < 10) : decDigit (BitVec.ofNat 8 (0x30 + d)) = some d := by
  have : (BitVec.ofNat 8 (0x30 + d)).toNat = 0x30 + d := by
    simp only [BitVec.toNat_ofNat]; omega
  unfold decDigit
  rw [this, if_pos (by omega)]
  congr 1; omega

theorem decText_pos {n : Nat} (h : 0 < n) :
    decText n = (Nat.digits 10 n).reverse.map fun d => BitVec.ofNat 8 (0x30 + d) := by
  unfold decText; rw [if_neg (by omega)]

theorem decText_ne_nil (n : Nat) : decText n ≠ [] := by
  by_cases h : n = 0
  · subst h; simp [decText]
  · rw [decText_pos (by omega)]
    simp [Nat.digits_ne_nil_iff_ne_zero, h]

theorem decNat_decText (n : Nat) : decNat (decText n) = some n := by
  unfold decNat
  rw [if_neg (decText_ne_nil n)]
  by_cases h : n = 0
  · subst h; decide
  · rw [decText_pos (by omega), mapM_eq_some_of]
    · rw [Option.map_some, List.reverse_reverse, Nat.ofDigits_digits]
    · intro d hd
      exact decDigit_ofNat (Nat.digits_lt_base (by omega) (List.mem_reverse.1 hd))

/-- The first character of the decimal text is a digit, not zero if the number is positive. -/
theorem decText_head (n : Nat) : ∃ d rest, decText n = BitVec.ofNat 8 (0x30 + d) :: rest ∧ d < 10 ∧
    (0 < n → d ≠ 0) := by
  by_cases h : n = 0
  · subst h; exact ⟨0, [], rfl, by omega, by omega⟩
  · rw [decText_pos (by omega)]
    have hne : Nat.digits 10 n ≠ [] := Nat.digits_ne_nil_iff_ne_zero.2 h
    have hr : (Nat.digits 10 n).reverse = (Nat.digits 10 n).getLast hne :: (Nat.digits 10 n).dropLast.reverse := by
      conv_lhs => rw [← List.dropLast_concat_getLast hne]
      simp
    rw [hr]
    exact ⟨_, _, rfl, Nat.digits_lt_base (by omega) (List.getLast_mem hne), fun _ => Nat.getLast_digit_ne_zero 10 h⟩

theorem setString_decText (n : Nat) : setString (decText n) = some (n : Int) := by
  obtain ⟨d, rest, he, hd, _⟩ := decText_head n
  have h := decNat_decText n
  rw [he] at h ⊢
  have h1 : BitVec.ofNat 8 (0x30 + d) ≠ 0x2b := by
    intro e
    have := congrArg BitVec.toNat e
    simp at this
    omega
  have h2 : BitVec.ofNat 8 (0x30 + d) ≠ 0x2d := by
    intro e
    have := congrArg BitVec.toNat e
    simp at this
    omega
  unfold setString
  split
  · rename_i e; simp only [List.cons.injEq] at e; exact absurd e.1 h1
  · rename_i e; simp only [List.cons.injEq] at e; exact absurd e.1 h2
  · rw [h]; rfl

theorem base58_index : ∀ d < 58, base58Index (base58Alphabet.getD d 0) = some d := by
  decide +kernel

/-- The written-out base58 package satisfies the law. -/
theorem base58_law (n : Nat) (h : 0 < n) :
    ∃ w, base58Encode (decText n) = .ok w ∧ base58Decode w = .ok (decText n) := by
  have hz : (decText n).takeWhile (· = 0x30) = [] := by
    obtain ⟨d, rest, he, hd, h0⟩ := decText_head n
    rw [he, List.takeWhile_cons_of_neg]
    simp only [decide_eq_true_eq]
    intro e
    have := congrArg BitVec.toNat e
    simp at this
    have := h0 h
    omega
  have hne : Nat.digits 58 n ≠ [] := Nat.digits_ne_nil_iff_ne_zero.2 (by omega)
  refine ⟨(Nat.digits 58 n).reverse.map fun d => base58Alphabet.getD d 0, ?_, ?_⟩
  · unfold base58Encode
    rw [if_neg (decText_ne_nil n), setString_decText]
    simp only
    rw [if_neg (by omega), hz]
    rfl
  · have hr : (Nat.digits 58 n).reverse = (Nat.digits 58 n).getLast hne :: (Nat.digits 58 n).dropLast.reverse := by
      conv_lhs => rw [← List.dropLast_concat_getLast hne]
      simp
    have hmem : ∀ d ∈ (Nat.digits 58 n).reverse, base58Index (base58Alphabet.getD d 0) = some d := fun d hd =>
      base58_index d (Nat.digits_lt_base (by omega) (List.mem_reverse.1 hd))
    have hhead : base58Alphabet.getD ((Nat.digits 58 n).getLast hne) 0 ≠ base58Alphabet.getD 0 0 := by
      intro e
      have h1 := hmem _ (by rw [hr]; exact List.mem_cons_self)
      rw [e, base58_index 0 (by omega)] at h1
      exact Nat.getLast_digit_ne_zero 58 (by omega : n ≠ 0) (Option.some.inj h1).symm
    unfold base58Decode
    rw [if_neg (by rw [hr]; simp), mapM_eq_some_of _ _ _ hmem]
    simp only [List.reverse_reverse, Nat.ofDigits_digits]
    have hz' : (((Nat.digits 58 n).reverse.map fun d => base58Alphabet.getD d 0).dropLast.takeWhile
        (· = base58Alphabet.getD 0 0)) = [] := by
      rw [hr, List.map_cons]
      cases hc : ((Nat.digits 58 n).dropLast.reverse.map fun d => base58Alphabet.getD d 0) with
      | nil => rfl
      | cons a l =>
        rw [List.dropLast_cons_of_ne_nil (by simp), List.takeWhile_cons_of_neg]
        simpa using hhead
    rw [hz']
    rfl

end Verif.Keypair
