import Verif.Model.ProtectJSON
import Verif.Spec.UTF8
import Mathlib.Data.Nat.Notation
import Mathlib.Tactic.SplitIfs
import Mathlib.Tactic.IntervalCases
/-!
# Lemmas for the JSON form of protected keys: UTF-8 and base64
-/
namespace Verif.ProtectJSON
open Verif.Spec

theorem isCont_iff (b : Byte) : isCont b = true ↔ 0x80 ≤ b.toNat ∧ b.toNat ≤ 0xBF := by
  simp [isCont]

/-- The bytes of an encoded scalar value have the length that `runeLen` finds. -/
theorem runeLen_encode (n : ℕ) (hn : UTF8.Scalar n) (s rest : Bytes) (hs : s.map BitVec.toNat = UTF8.encode n) :
    runeLen (s ++ rest) = s.length ∧ s ≠ [] := by
  unfold UTF8.Scalar at hn
  unfold UTF8.encode at hs
  split_ifs at hs with h1 h2 h3
  · obtain ⟨b0, rfl⟩ : ∃ b0, s = [b0] := by
      rcases s with _ | ⟨a, _ | ⟨b, t⟩⟩ <;> simp at hs ⊢
    simp only [List.map_cons, List.map_nil, List.cons.injEq, and_true] at hs
    simp [runeLen, hs, h1]
  · obtain ⟨b0, b1, rfl⟩ : ∃ b0 b1, s = [b0, b1] := by
      rcases s with _ | ⟨a, _ | ⟨b, _ | ⟨c, t⟩⟩⟩ <;> simp at hs ⊢
    simp only [List.map_cons, List.map_nil, List.cons.injEq, and_true] at hs
    obtain ⟨e0, e1⟩ := hs
    have c1 : isCont b1 = true := by rw [isCont_iff]; omega
    simp only [runeLen, List.cons_append, List.nil_append]
    rw [if_neg (by omega), if_pos (by omega), if_pos c1]
    simp
  · obtain ⟨b0, b1, b2, rfl⟩ : ∃ b0 b1 b2, s = [b0, b1, b2] := by
      rcases s with _ | ⟨a, _ | ⟨b, _ | ⟨c, _ | ⟨d, t⟩⟩⟩⟩ <;> simp at hs ⊢
    simp only [List.map_cons, List.map_nil, List.cons.injEq, and_true] at hs
    obtain ⟨e0, e1, e2⟩ := hs
    have c1 : isCont b1 = true := by rw [isCont_iff]; omega
    have c2 : isCont b2 = true := by rw [isCont_iff]; omega
    simp only [runeLen, List.cons_append, List.nil_append]
    rw [if_neg (by omega), if_neg (by omega), if_pos (by omega),
      if_pos ⟨c1, c2, by omega, by omega⟩]
    simp
  · obtain ⟨b0, b1, b2, b3, rfl⟩ : ∃ b0 b1 b2 b3, s = [b0, b1, b2, b3] := by
      rcases s with _ | ⟨a, _ | ⟨b, _ | ⟨c, _ | ⟨d, _ | ⟨e, t⟩⟩⟩⟩⟩ <;> simp at hs ⊢
    simp only [List.map_cons, List.map_nil, List.cons.injEq, and_true] at hs
    obtain ⟨e0, e1, e2, e3⟩ := hs
    have c1 : isCont b1 = true := by rw [isCont_iff]; omega
    have c2 : isCont b2 = true := by rw [isCont_iff]; omega
    have c3 : isCont b3 = true := by rw [isCont_iff]; omega
    simp only [runeLen, List.cons_append, List.nil_append]
    rw [if_neg (by omega), if_neg (by omega), if_neg (by omega), if_pos (by omega),
      if_pos ⟨c1, c2, c3, by omega, by omega⟩]
    simp

/-- What `runeLen` accepts is an encoded scalar value. -/
theorem runeLen_valid (s : Bytes) (h : runeLen s ≠ 0) :
    runeLen s ≤ s.length ∧ ∃ n, UTF8.Scalar n ∧ (s.take (runeLen s)).map BitVec.toNat = UTF8.encode n := by
  rcases s with _ | ⟨b0, t⟩
  · simp [runeLen] at h
  have l0 := b0.isLt
  unfold runeLen at h ⊢
  dsimp only at h ⊢
  split_ifs at h ⊢ with h1 h2 h3 h4
  · refine ⟨by simp, b0.toNat, .inl (by omega), ?_⟩
    simp [UTF8.encode, h1]
  · rcases t with _ | ⟨b1, t⟩
    · simp at h
    · dsimp only at h ⊢
      split_ifs at h ⊢ with c
      · rw [isCont_iff] at c
        refine ⟨by simp, (b0.toNat - 0xC0) * 64 + (b1.toNat - 0x80), .inl (by omega), ?_⟩
        unfold UTF8.encode
        rw [if_neg (by omega), if_pos (by omega)]
        simp only [List.take_succ_cons, List.take_zero, List.map_cons, List.map_nil, List.cons.injEq, and_true]
        omega
      · exact absurd rfl h
  · rcases t with _ | ⟨b1, _ | ⟨b2, t⟩⟩
    · simp at h
    · simp at h
    · dsimp only at h ⊢
      split_ifs at h ⊢ with c
      · rw [isCont_iff, isCont_iff] at c
        refine ⟨by simp, (b0.toNat - 0xE0) * 4096 + (b1.toNat - 0x80) * 64 + (b2.toNat - 0x80), ?_, ?_⟩
        · unfold UTF8.Scalar
          omega
        · unfold UTF8.encode
          rw [if_neg (by omega), if_neg (by omega), if_pos (by omega)]
          simp only [List.take_succ_cons, List.take_zero, List.map_cons, List.map_nil, List.cons.injEq, and_true]
          omega
      · exact absurd rfl h
  · rcases t with _ | ⟨b1, _ | ⟨b2, _ | ⟨b3, t⟩⟩⟩
    · simp at h
    · simp at h
    · simp at h
    · dsimp only at h ⊢
      split_ifs at h ⊢ with c
      · rw [isCont_iff, isCont_iff, isCont_iff] at c
        refine ⟨by simp, (b0.toNat - 0xF0) * 262144 + (b1.toNat - 0x80) * 4096 + (b2.toNat - 0x80) * 64 +
          (b3.toNat - 0x80), ?_, ?_⟩
        · unfold UTF8.Scalar
          omega
        · unfold UTF8.encode
          rw [if_neg (by omega), if_neg (by omega), if_neg (by omega)]
          simp only [List.take_succ_cons, List.take_zero, List.map_cons, List.map_nil, List.cons.injEq, and_true]
          omega
      · exact absurd rfl h
  · exact absurd rfl h

theorem encode_map_split (n : ℕ) (text : List ℕ) (s : Bytes)
    (h : s.map BitVec.toNat = (n :: text).flatMap UTF8.encode) :
    ∃ a b, s = a ++ b ∧ a.map BitVec.toNat = UTF8.encode n ∧ b.map BitVec.toNat = text.flatMap UTF8.encode := by
  rw [List.flatMap_cons, List.map_eq_append_iff] at h
  obtain ⟨a, b, h1, h2, h3⟩ := h
  exact ⟨a, b, h1, h2, h3⟩

theorem fixFrom_valid (text : List ℕ) (ht : ∀ n ∈ text, UTF8.Scalar n) :
    ∀ (s : Bytes) (fuel : ℕ), s.map BitVec.toNat = text.flatMap UTF8.encode → s.length ≤ fuel → fixFrom fuel s = s := by
  induction text with
  | nil =>
    intro s fuel hs _
    simp only [List.flatMap_nil, List.map_eq_nil_iff] at hs
    subst hs
    cases fuel <;> rfl
  | cons n text ih =>
    intro s fuel hs hf
    obtain ⟨a, b, rfl, ha, hb⟩ := encode_map_split n text s hs
    obtain ⟨hl, hne⟩ := runeLen_encode n (ht n (by simp)) a b ha
    rcases a with _ | ⟨x, a⟩
    · exact absurd rfl hne
    · cases fuel with
      | zero => simp at hf
      | succ fuel =>
        simp only [List.cons_append] at hl ⊢
        simp only [fixFrom]
        rw [hl, if_neg (by simp), ← List.cons_append, List.take_left, List.drop_left,
          ih (fun n hn => ht n (by simp [hn])) b fuel hb (by simp at hf; omega)]

/-- Whatever is written as a JSON string is UTF-8. -/
theorem fixFrom_isValid (fuel : ℕ) : ∀ s : Bytes, UTF8.Valid (fixFrom fuel s) := by
  induction fuel with
  | zero => intro s; exact ⟨[], by simp, by simp [fixFrom]⟩
  | succ fuel ih =>
    intro s
    rcases s with _ | ⟨b, t⟩
    · exact ⟨[], by simp, by simp [fixFrom]⟩
    · simp only [fixFrom]
      split_ifs with h
      · obtain ⟨text, h1, h2⟩ := ih t
        refine ⟨0xFFFD :: text, ?_, ?_⟩
        · intro n hn
          rcases List.mem_cons.1 hn with rfl | hn
          · exact .inr (by decide)
          · exact h1 n hn
        · rw [List.map_append, h2, List.flatMap_cons]
          rfl
      · obtain ⟨_, n, hn, he⟩ := runeLen_valid (b :: t) h
        obtain ⟨text, h1, h2⟩ := ih ((b :: t).drop (runeLen (b :: t)))
        refine ⟨n :: text, ?_, ?_⟩
        · intro m hm
          rcases List.mem_cons.1 hm with rfl | hm
          · exact hn
          · exact h1 m hm
        · rw [List.map_append, he, h2, List.flatMap_cons]

theorem fixUTF8_eq_iff (s : Bytes) : fixUTF8 s = s ↔ UTF8.Valid s := by
  constructor
  · intro h
    rw [← h]; exact fixFrom_isValid _ _
  · rintro ⟨text, h1, h2⟩
    exact fixFrom_valid text h1 s s.length h2 (by simp)

/-! ## base64 -/

theorem b64Index_char : ∀ d < 64, b64Index (b64Char d) = some d := by decide +kernel

theorem b64Char_ne : ∀ d < 64, b64Char d ≠ 0x3D := by decide +kernel

theorem ofNat_toNat' (b : Byte) (n : ℕ) (h : n = b.toNat) : BitVec.ofNat 8 n = b := by
  subst h; simp

theorem b64_roundtrip : ∀ b : Bytes, b64dec (b64enc b) = some b
  | [] => rfl
  | [a] => by
    have := a.isLt
    simp only [b64enc, b64dec]
    rw [if_pos (by simp), b64Index_char _ (by omega), b64Index_char _ (by omega)]
    simp only [Option.bind_eq_bind, Option.bind_some, Option.pure_def]
    rw [ofNat_toNat' a _ (by omega)]
  | [a, b] => by
    have := a.isLt
    have := b.isLt
    simp only [b64enc, b64dec]
    rw [if_neg (by rintro ⟨-, h, -⟩; exact b64Char_ne _ (by omega) h), if_pos (by simp),
      b64Index_char _ (by omega), b64Index_char _ (by omega), b64Index_char _ (by omega)]
    simp only [Option.bind_eq_bind, Option.bind_some, Option.pure_def]
    rw [ofNat_toNat' a _ (by omega), ofNat_toNat' b _ (by omega)]
  | a :: b :: c :: t => by
    have := a.isLt
    have := b.isLt
    have := c.isLt
    have h3 : b64Char (c.toNat % 64) ≠ 0x3D := b64Char_ne _ (by omega)
    simp only [b64enc, b64dec, List.cons_append, List.nil_append]
    rw [if_neg (by rintro ⟨-, -, h⟩; exact h3 h), if_neg (by rintro ⟨-, h⟩; exact h3 h),
      b64Index_char _ (by omega), b64Index_char _ (by omega), b64Index_char _ (by omega),
      b64Index_char _ (by omega), b64_roundtrip t]
    simp only [Option.bind_eq_bind, Option.bind_some, Option.pure_def]
    rw [ofNat_toNat' a _ (by omega), ofNat_toNat' b _ (by omega), ofNat_toNat' c _ (by omega)]

end Verif.ProtectJSON
