import Verif.Props.KeyGen
/-!
# What parsed and generated keys look like (C75, C76), encoding of out-of-range points (C77)
-/
namespace Verif.Props
open Verif Verif.EC Verif.Keypair Verif.Spec

theorem decode_curve (k1name : String) (c : Curve) (data : Bytes) (draws : List Nat) (p : ECPub)
    (h : decodePublicKey k1name data (some c) draws = some (.ok p)) : p.curve = c := by
  rcases decode_ok_cases _ _ _ _ _ h with ⟨_, _, _, _, _, _, rfl⟩ | ⟨tag, xb, _, _, _, _, hd⟩
  · rfl
  · exact deCompress_curve _ _ _ _ _ _ hd

/-- **C75**: a public key that is accepted has the algorithm and the curve its bytes name: an ECDSA or SM2
key with label is the point encoded after the two header bytes, on the labelled curve; a bare P-256 key
is an ECDSA key on P-256; an Ed25519 key consists of exactly 32 bytes; an Ethereum key is a 65-byte
uncompressed point with reduced coordinates on secp256k1. Nothing else is accepted. -/
theorem C75_parsed_public (E : Ext) (data : Bytes) (draws : List Nat) (k : PublicKey)
    (h : deserializePublicKey E data draws = some (.ok k)) :
    (∃ t l body c alg x y, data = t :: l :: body ∧ CurveLabel E.k1name c l ∧
      ((t = 0x12 ∧ alg = .ecdsa) ∨ (t = 0x13 ∧ alg = .sm2)) ∧ k = .ec alg ⟨c, x, y⟩ ∧
      decodePublicKey E.k1name body (some c) draws = some (.ok ⟨c, x, y⟩)) ∨
    (∃ b, data = 0x14 :: 25 :: b ∧ k = .ed b ∧ b.length = 32) ∨
    (∃ t body x y, data = t :: body ∧ (t = 2 ∨ t = 3 ∨ t = 4) ∧ k = .ec .ecdsa ⟨Curves.p256, x, y⟩ ∧
      decodePublicKey E.k1name data (some Curves.p256) draws = some (.ok ⟨Curves.p256, x, y⟩)) ∨
    (∃ xb yb, data = 0x15 :: 4 :: (xb ++ yb) ∧ xb.length = 32 ∧ yb.length = 32 ∧
      k = .eth ⟨ethCurve E, natOfBytes xb, natOfBytes yb⟩ ∧
      natOfBytes xb < (ethCurve E).P ∧ natOfBytes yb < (ethCurve E).P ∧
      OnCurve (ethCurve E) 0 (natOfBytes xb) (natOfBytes yb)) := by
  unfold deserializePublicKey at h
  split at h
  · simp at h
  rename_i hlen
  match data, hlen with
  | [], hlen => simp at hlen
  | [_], hlen => simp at hlen
  | t :: l :: body, hlen =>
    simp only [List.getD_cons_zero, List.getD_cons_succ, List.drop_succ_cons, List.drop_zero] at h
    split at h
    · rename_i ht
      left
      cases hg : getCurve E l with
      | err m => simp [hg] at h
      | panic m => exact absurd hg (getCurve_not_panic E l m)
      | ok c =>
        simp only [hg, Option.map_eq_some_iff] at h
        obtain ⟨r, hr, hm⟩ := h
        cases r with
        | err m => cases hm
        | panic m => cases hm
        | ok p =>
          have hc := decode_curve _ _ _ _ _ hr
          obtain ⟨pc, px, py⟩ := p
          simp only at hc
          subst hc
          cases hm
          refine ⟨t, l, body, pc, _, px, py, rfl, label_of_getCurve E hg, ?_, rfl, hr⟩
          rcases ht with rfl | rfl
          · exact Or.inl ⟨rfl, rfl⟩
          · exact Or.inr ⟨rfl, rfl⟩
    · right
      split at h
      · rename_i ht
        left
        split at h
        · rename_i hl
          split at h
          · cases h
          · rename_i h32
            cases h
            exact ⟨body, by rw [ht, hl], rfl, not_not.1 h32⟩
        · cases h
      · right
        split at h
        · rename_i ht
          left
          rw [Option.map_eq_some_iff] at h
          obtain ⟨r, hr, hm⟩ := h
          cases r with
          | err m => cases hm
          | panic m => cases hm
          | ok p =>
            have hc := decode_curve _ _ _ _ _ hr
            obtain ⟨pc, px, py⟩ := p
            simp only at hc
            subst hc
            cases hm
            exact ⟨t, l :: body, px, py, rfl, ht, rfl, hr⟩
        · right
          split at h
          · rename_i ht
            simp only [Option.some.injEq] at h
            unfold unmarshalPubkey at h
            simp only [List.getD_cons_zero, List.drop_succ_cons, List.drop_zero,
              List.length_cons] at h
            split at h
            · cases h
            rename_i h65
            split at h
            · cases h
            rename_i h4
            split at h
            · cases h
            rename_i hr
            split at h
            · rename_i hon
              cases h
              have e : (body.drop 32).take 32 = body.drop 32 :=
                List.take_of_length_le (by rw [List.length_drop]; omega)
              rw [e] at hr hon ⊢
              refine ⟨body.take 32, body.drop 32, ?_, ?_, ?_, rfl, ?_, ?_, ?_⟩
              · rw [List.take_append_drop, ht, not_not.1 h4]
              · rw [List.length_take]; omega
              · rw [List.length_drop]; omega
              · omega
              · omega
              · exact (isOnK1_iff E _ _).1 hon
            · cases h
          · cases h

/-- **C76**: GenerateKeyPair returns a key of the algorithm and curve that were asked for, the public half
belonging to the private one, and an error for every other algorithm or option. (An Ed25519 seed is a read of 32 bytes.) -/
theorem C76_generated_kind (E : Ext) (t : Byte) (opts : Opts) (reads : List Bytes) (priv : PrivateKey)
    (pub : PublicKey) (hseed : t = 0x14 → ∀ b ∈ reads, b.length = 32)
    (h : generateKeyPair E t opts reads = some (.ok (priv, pub))) :
    pub = priv.matching ∧
    ((∃ l c D, opts = .byte l ∧ CurveLabel E.k1name c l ∧
        ((t = 0x12 ∧ priv = .ec .ecdsa ⟨D, ⟨c, (E.baseMult c D).1, (E.baseMult c D).2⟩⟩) ∨
         (t = 0x13 ∧ priv = .ec .sm2 ⟨D, ⟨c, (E.baseMult c D).1, (E.baseMult c D).2⟩⟩))) ∨
     (t = 0x14 ∧ opts = .byte 25 ∧ ∃ seed, priv = .ed (seed ++ E.edPublic seed)) ∨
     (t = 0x15 ∧ ∃ D, priv = .eth ⟨D, ⟨ethCurve E, (E.baseMult (ethCurve E) D).1,
       (E.baseMult (ethCurve E) D).2⟩⟩)) := by
  unfold generateKeyPair at h
  split at h
  · rename_i ht
    cases opts with
    | other => cases h
    | byte l =>
      cases hg : getCurve E l with
      | err m => simp [hg] at h
      | panic m => exact absurd hg (getCurve_not_panic E l m)
      | ok c =>
        simp only [hg, generateECKeyPair, Option.map_map, Option.map_eq_some_iff,
          Function.comp_apply] at h
        obtain ⟨D, -, hm⟩ := h
        cases hm
        refine ⟨rfl, Or.inl ⟨l, c, D, rfl, label_of_getCurve E hg, ?_⟩⟩
        rcases ht with rfl | rfl
        · exact Or.inl ⟨rfl, rfl⟩
        · exact Or.inr ⟨rfl, rfl⟩
  · split at h
    · rename_i ht
      cases opts with
      | other => cases h
      | byte l =>
        simp only at h
        split at h
        · rename_i hl
          cases reads with
          | nil => cases h
          | cons seed rest =>
            cases h
            refine ⟨?_, Or.inr (Or.inl ⟨ht, by rw [hl], seed, rfl⟩)⟩
            show PublicKey.ed _ = .ed ((seed ++ E.edPublic seed).drop 32)
            rw [List.drop_left' (hseed ht seed List.mem_cons_self)]
        · cases h
    · split at h
      · rename_i ht
        cases reads with
        | nil => cases h
        | cons b rest =>
          cases h
          exact ⟨rfl, Or.inr (Or.inr ⟨ht, _, rfl⟩)⟩
      · cases h

/-- **C77 (partial)**: EncodePublicKey panics exactly when a coordinate is too long for the buffer, and
otherwise returns a string of the right length; it starts with the tag unless the second coordinate
has more than twice the length of the field. Missing: a coordinate longer than the field by one byte,
or a `y` longer than the field, is not rejected, see `C77_oversize_collides`. -/
theorem C77_encode_shape_partial (key : ECPub) (compressed : Bool) :
    ((∃ m, encodePublicKey (some key) compressed = .panic m) ↔
      256 ^ (key.curve.byteSize + 1) ≤ key.x ∨
        (compressed = false ∧ 256 ^ (2 * key.curve.byteSize + 1) ≤ key.y)) ∧
    ∀ e, encodePublicKey (some key) compressed = .ok e →
      e.length = (if compressed then 1 else 2) * key.curve.byteSize + 1 ∧
      (compressed = true → e.head? = some (if key.y % 2 = 1 then 3 else 2)) ∧
      (compressed = false → key.y < 256 ^ (2 * key.curve.byteSize) → e.head? = some 4) := by
  have hx := @byteLen_le_iff key.x (key.curve.byteSize + 1)
  have hy := @byteLen_le_iff key.y (2 * key.curve.byteSize + 1)
  have hy' := @byteLen_le_iff key.y (2 * key.curve.byteSize)
  have hp : key.y.testBit 0 = decide (key.y % 2 = 1) := Nat.testBit_zero _
  unfold encodePublicKey
  simp only [bytesOfNat_length, hp]
  generalize key.curve.byteSize = L at *
  have hl : (bytesOfNat key.x).length = byteLen key.x := bytesOfNat_length _
  have hl' : (bytesOfNat key.y).length = byteLen key.y := bytesOfNat_length _
  generalize bytesOfNat key.x = xs at *
  generalize bytesOfNat key.y = ys at *
  by_cases h1 : byteLen key.x > L + 1
  · rw [if_pos h1]
    exact ⟨⟨fun _ => Or.inl (by rw [← not_lt, ← hx]; omega), fun _ => ⟨_, rfl⟩⟩, fun e he => by simp at he⟩
  rw [if_neg h1]
  have n1 : ¬ 256 ^ (L + 1) ≤ key.x := by rw [not_le, ← hx]; omega
  have len1 : (splice (zeros (L * 2 + 1)) (L + 1 - byteLen key.x) xs).length = L * 2 + 1 := by
    rw [splice_length _ _ _ (by rw [zeros_length]; omega), zeros_length]
  generalize splice (zeros (L * 2 + 1)) (L + 1 - byteLen key.x) xs = b1 at *
  have len2 : ∀ t : Byte, (splice b1 0 [t]).length = L * 2 + 1 := fun t => by
    rw [splice_length _ _ _ (by rw [List.length_singleton]; omega), len1]
  have head2 : ∀ t : Byte, (splice b1 0 [t]).head? = some t := fun t => rfl
  cases compressed with
  | true =>
    simp only [if_true, n1, false_or, Bool.true_eq_false, false_and, iff_false, not_exists]
    refine ⟨fun m h => by simp at h, fun e he => ?_⟩
    cases he
    refine ⟨?_, fun _ => ?_, fun h => h.elim⟩
    · rw [List.length_take, len2]; omega
    · rw [List.head?_take, if_neg (by omega), head2]
      split <;> simp_all
  | false =>
    simp only [Bool.false_eq_true, if_false, n1, false_or, true_and]
    split
    · rename_i h2
      exact ⟨⟨fun _ => by rw [← not_lt, ← hy]; omega, fun _ => ⟨_, rfl⟩⟩, fun e he => by simp at he⟩
    · rename_i h2
      refine ⟨⟨fun ⟨m, h⟩ => by simp at h, fun h => ?_⟩, fun e he => ?_⟩
      · rw [← not_lt, ← hy] at h; omega
      · cases he
        refine ⟨?_, fun h => h.elim, fun _ h => ?_⟩
        · rw [splice_length _ _ _ (by rw [len2]; omega), len2]; omega
        · rw [← hy'] at h
          unfold splice
          have hh := head2 4
          cases hb : splice b1 0 [4] with
          | nil => rw [hb] at hh; cases hh
          | cons a b =>
            rw [hb] at hh
            cases hh
            rw [show L * 2 + 1 - byteLen key.y = (L * 2 - byteLen key.y) + 1 by omega]
            rfl

/-- Out-of-range coordinates are not rejected: the "point" with `x = 256^32` is encoded like the one
with `x = 0`, and the one with `y = 256^32` (uncompressed) like the one with `x = 1`, `y = 0`. -/
theorem C77_oversize_collides :
    encodePublicKey (some ⟨Curves.p256, 256 ^ 32, 1⟩) true =
      encodePublicKey (some ⟨Curves.p256, 0, 1⟩) true ∧
    encodePublicKey (some ⟨Curves.p256, 0, 256 ^ 32⟩) false =
      encodePublicKey (some ⟨Curves.p256, 1, 0⟩) false := by
  constructor <;> decide +kernel

/-! ### Concrete, non-trivial cases -/

/-- The panic of `C77_encode_shape_partial` happens. -/
example : ∃ m, encodePublicKey (some ⟨Curves.p256, 256 ^ 33, 1⟩) true = .panic m :=
  (C77_encode_shape_partial ⟨Curves.p256, 256 ^ 33, 1⟩ true).1.2 (Or.inl (by decide +kernel))

/-- An accepted Ed25519 key. -/
example (E : Ext) : deserializePublicKey E (0x14 :: 25 :: List.replicate 32 7) [] =
    some (.ok (.ed (List.replicate 32 7))) := rfl

/-- An accepted SM2 key (uncompressed: the point `(7, 9)` is not checked, see C12). -/
example (E : Ext) : deserializePublicKey E (0x13 :: 20 :: 4 :: (beFix 32 7 ++ beFix 32 9)) [] =
    some (.ok (.ec .sm2 ⟨Curves.sm2, 7, 9⟩)) := by
  have h : getCurve E 20 = .ok Curves.sm2 := getCurve_label E .sm2
  unfold deserializePublicKey
  rw [if_neg (by decide), if_pos (by decide)]
  have hd : ∀ n : String, decodePublicKey n (4 :: (beFix 32 7 ++ beFix 32 9)) (some Curves.sm2) [] =
      some (.ok ⟨Curves.sm2, 7, 9⟩) := fun n => by
    have := decode_uncompressed n Curves.sm2 (beFix 32 7) (beFix 32 9) [] (by decide) (by decide) []
    rw [List.append_nil] at this
    exact this
  simp only [List.getD_cons_zero, List.getD_cons_succ, List.drop_succ_cons, List.drop_zero, h, hd]
  rfl

/-- An ECDSA key pair on P-224 can be generated: the scalar read is 5. -/
example (E : Ext) : ∃ priv pub, generateKeyPair E 0x12 (.byte 1) [beFix 28 5] = some (.ok (priv, pub)) := by
  have h : getCurve E 1 = .ok Curves.p224 := getCurve_label E .p224
  unfold generateKeyPair
  rw [if_pos (by decide)]
  simp only [h]
  have h5 : (genScalar Curves.p224 [beFix 28 5]).isSome = true := by decide +kernel
  obtain ⟨D, hD⟩ := Option.isSome_iff_exists.1 h5
  unfold generateECKeyPair
  rw [hD]
  exact ⟨_, _, rfl⟩

end Verif.Props
