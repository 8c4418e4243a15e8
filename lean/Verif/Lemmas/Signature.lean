import Verif.Spec.Signature
import Verif.Lemmas.Bytes
import Verif.Lemmas.Slice
import Verif.Lemmas.Keypair
import Verif.Lemmas.SM2
import Verif.Lemmas.EC
/-!
# Lemmas about the model of package signature
-/
namespace Verif.Signature
open Verif.Keypair Verif.Spec

theorem isECDSA_iff (s : Scheme) : isECDSA s = true ↔ s.toNat ≤ 8 := by
  revert s; decide +kernel

theorem isECDSA_false {s : Scheme} (h : ¬ s.toNat ≤ 8) : isECDSA s = false := by
  cases hb : isECDSA s
  · rfl
  · exact absurd ((isECDSA_iff s).1 hb) h

theorem hashOf_isSome (s : Scheme) : (hashOf s).isSome = true ↔ s.toNat ≤ 11 := by
  revert s; decide +kernel

theorem hashOf_of_le {s : Scheme} (h : s.toNat ≤ 11) : ∃ a, hashOf s = some a :=
  Option.isSome_iff_exists.1 ((hashOf_isSome s).2 h)

/-! ## Parsing -/

theorem zeroIndex_spec (l : Bytes) : zeroIndex l ≤ l.length ∧ (0 : Byte) ∉ l.take (zeroIndex l) ∧
    (zeroIndex l < l.length → l.drop (zeroIndex l) = 0 :: l.drop (zeroIndex l + 1)) := by
  induction l with
  | nil => simp [zeroIndex]
  | cons b l ih =>
    unfold zeroIndex
    split_ifs with h
    · simp [h]
    · obtain ⟨h1, h2, h3⟩ := ih
      refine ⟨by simp; omega, ?_, ?_⟩
      · rw [List.take_succ_cons, List.mem_cons]
        rintro (e | e)
        · exact h e.symm
        · exact h2 e
      · intro hl
        simp only [List.length_cons] at hl
        rw [List.drop_succ_cons, List.drop_succ_cons]
        exact h3 (by omega)

theorem zeroIndex_append (id rest : Bytes) (h : (0 : Byte) ∉ id) :
    zeroIndex (id ++ 0 :: rest) = id.length := by
  induction id with
  | nil => simp [zeroIndex]
  | cons b id ih =>
    simp only [List.mem_cons, not_or] at h
    rw [List.cons_append, zeroIndex, if_neg (Ne.symm h.1), ih h.2]; rfl

/-- `Deserialize` as a function of the contents only. -/
def parse (b : Bytes) : Res (Sig Bytes) :=
  if b.length < 2 then .err "failed deserializing signature: invalid argument"
  else
    let data := if b.length = 64 then b else b.drop 1
    let scheme : Scheme := if b.length = 64 then SHA256withECDSA else b.getD 0 0
    if isECDSA scheme then
      if data.length = 65 then .ok ⟨scheme, .bytes data⟩
      else (deserializeDSA data).map fun rs => ⟨scheme, .dsa rs.1 rs.2 none⟩
    else if scheme = SM3withSM2 then
      let i := zeroIndex data
      if i ≥ data.length then .err "failed deserializing signature: invalid format"
      else
        (deserializeDSA (data.drop (i + 1))).map fun rs => ⟨scheme, .sm2 rs.1 rs.2 none (data.take i)⟩
    else if scheme = SHA512withEDDSA ∨ scheme = KECCAK256WithECDSA then .ok ⟨scheme, .bytes data⟩
    else .err "failed deserializing signature: unknown signature scheme"

theorem read_length {h : Heap} {s : Slice} (hv : s.Valid h) : (s.read h).length = s.len := by
  obtain ⟨_, h2, h3⟩ := hv
  unfold Slice.read
  rw [List.length_take, List.length_drop]; omega

theorem sub_read (h : Heap) (s : Slice) (i : Nat) : (s.sub i s.len).read h = (s.read h).drop i := by
  unfold Slice.read Slice.sub
  simp only
  rw [List.drop_take, List.drop_drop]

theorem alloc_read (h : Heap) (b : Bytes) : (h.alloc b).2.read (h.alloc b).1 = b := by
  simp [Slice.read, Heap.alloc]

/-- A slice shows its bytes and, on reslicing, the rest of its capacity, no more. -/
theorem bufOf_spec (h : Heap) (s : Slice) (hv : s.Valid h) :
    (bufOf h s).data.length = s.len ∧ (bufOf h s).spare.length = s.cap - s.len ∧
    (bufOf h s).data ++ (bufOf h s).spare = ((h.mem s.arr).drop s.off).take s.cap := by
  obtain ⟨_, h1, h2⟩ := hv
  unfold bufOf Slice.read
  refine ⟨by simp; omega, by simp; omega, ?_⟩
  dsimp only
  rw [← List.drop_drop, ← List.take_add, Nat.add_sub_cancel' h1]

theorem alloc_bufOf (h : Heap) (b : Bytes) : bufOf (h.alloc b).1 (h.alloc b).2 = ⟨b, []⟩ := by
  unfold bufOf; rw [alloc_read]; simp [Heap.alloc]

theorem deserializeDSA_not_panic (b : Bytes) (m : String) : deserializeDSA b ≠ .panic m := by
  unfold deserializeDSA; simp only; split_ifs <;> simp

/-- The data slice of `Deserialize`. -/
def dataOf (buf : Slice) : Slice := if buf.len = 64 then buf else buf.sub 1 buf.len

/-- The heap version and the contents version agree. The returned byte slices are either the input's
data (ECDSA schemes) or fresh. -/
theorem deserialize_parse {h : Heap} {buf : Slice} (hv : buf.Valid h) :
    (∀ m, deserialize h buf = .err m ↔ parse (buf.read h) = .err m) ∧
    (∀ m, deserialize h buf ≠ .panic m) ∧ (∀ m, parse (buf.read h) ≠ .panic m) ∧
    (∀ h' s, deserialize h buf = .ok (h', s) →
      parse (buf.read h) = .ok (s.map (bufOf h')).essence ∧
      ((s.scheme.toNat ≤ 8 ∧ h' = h ∧ (∀ t, s.value = .bytes t → t = buf.sub 1 buf.len ∧ buf.len = 66)) ∨
       (s.scheme.toNat = 9 ∧ h' = h ∧ ∀ t, s.value ≠ .bytes t) ∨
       ((s.scheme = 10 ∨ s.scheme = 11) ∧ h' = (h.alloc ((buf.read h).drop 1)).1 ∧ buf.len ≠ 64 ∧
          s.value = .bytes (h.alloc ((buf.read h).drop 1)).2))) := by
  have hl := read_length hv
  have hd : (dataOf buf).read h = if (buf.read h).length = 64 then buf.read h else (buf.read h).drop 1 := by
    unfold dataOf; rw [hl]
    split_ifs
    · rfl
    · exact sub_read h buf 1
  have hdl : (dataOf buf).len = ((dataOf buf).read h).length := by
    rw [hd, hl]; unfold dataOf
    split_ifs
    · exact hl.symm
    · rw [List.length_drop, hl]; rfl
  have h64 : buf.len ≠ 64 → (dataOf buf).read h = (buf.read h).drop 1 := by
    intro hne; rw [hd, hl, if_neg hne]
  have e1 : deserialize h buf =
      if buf.len < 2 then .err "failed deserializing signature: invalid argument"
      else
        let scheme : Scheme := if buf.len = 64 then SHA256withECDSA else (buf.read h).getD 0 0
        if isECDSA scheme then
          if (dataOf buf).len = 65 then .ok (h, ⟨scheme, .bytes (dataOf buf)⟩)
          else (deserializeDSA ((dataOf buf).read h)).map fun rs => (h, ⟨scheme, .dsa rs.1 rs.2 none⟩)
        else if scheme = SM3withSM2 then
          if zeroIndex ((dataOf buf).read h) ≥ (dataOf buf).len then
            .err "failed deserializing signature: invalid format"
          else
            (deserializeDSA (((dataOf buf).read h).drop (zeroIndex ((dataOf buf).read h) + 1))).map
              fun rs => (h, ⟨scheme, .sm2 rs.1 rs.2 none
                (((dataOf buf).read h).take (zeroIndex ((dataOf buf).read h)))⟩)
        else if scheme = SHA512withEDDSA ∨ scheme = KECCAK256WithECDSA then
          .ok ((h.alloc ((dataOf buf).read h)).1, ⟨scheme, .bytes (h.alloc ((dataOf buf).read h)).2⟩)
        else .err "failed deserializing signature: unknown signature scheme" := rfl
  have e2 : parse (buf.read h) =
      if buf.len < 2 then .err "failed deserializing signature: invalid argument"
      else
        let scheme : Scheme := if buf.len = 64 then SHA256withECDSA else (buf.read h).getD 0 0
        if isECDSA scheme then
          if (dataOf buf).len = 65 then .ok ⟨scheme, .bytes ((dataOf buf).read h)⟩
          else (deserializeDSA ((dataOf buf).read h)).map fun rs => ⟨scheme, .dsa rs.1 rs.2 none⟩
        else if scheme = SM3withSM2 then
          if zeroIndex ((dataOf buf).read h) ≥ (dataOf buf).len then
            .err "failed deserializing signature: invalid format"
          else
            (deserializeDSA (((dataOf buf).read h).drop (zeroIndex ((dataOf buf).read h) + 1))).map
              fun rs => ⟨scheme, .sm2 rs.1 rs.2 none
                (((dataOf buf).read h).take (zeroIndex ((dataOf buf).read h)))⟩
        else if scheme = SHA512withEDDSA ∨ scheme = KECCAK256WithECDSA then
          .ok ⟨scheme, .bytes ((dataOf buf).read h)⟩
        else .err "failed deserializing signature: unknown signature scheme" := by
    unfold parse
    simp only [hl, hdl, hd]
  rw [e1, e2]
  have hsch64 : buf.len = 64 → (if buf.len = 64 then SHA256withECDSA else (buf.read h).getD 0 0 : Scheme) = 1 :=
    fun e => if_pos e
  generalize (if buf.len = 64 then SHA256withECDSA else (buf.read h).getD 0 0 : Scheme) = sch at hsch64
  simp only
  by_cases c0 : buf.len < 2
  · rw [if_pos c0, if_pos c0]; simp
  rw [if_neg c0, if_neg c0]
  by_cases c1 : isECDSA sch = true
  · rw [if_pos c1, if_pos c1]
    have hle := (isECDSA_iff sch).1 c1
    by_cases c2 : (dataOf buf).len = 65
    · rw [if_pos c2, if_pos c2]
      refine ⟨by simp, by simp, by simp, ?_⟩
      intro h' s hs
      simp only [Res.ok.injEq, Prod.mk.injEq] at hs
      obtain ⟨rfl, rfl⟩ := hs
      refine ⟨rfl, Or.inl ⟨hle, rfl, ?_⟩⟩
      intro t ht
      have : t = dataOf buf := by injection ht with ht; exact ht.symm
      rw [this]
      have hne : buf.len ≠ 64 := by
        intro e; unfold dataOf at c2; rw [if_pos e] at c2; omega
      unfold dataOf at c2 ⊢
      rw [if_neg hne] at c2 ⊢
      refine ⟨rfl, ?_⟩
      simp only [Slice.sub] at c2; omega
    · rw [if_neg c2, if_neg c2]
      cases hdsa : deserializeDSA ((dataOf buf).read h) with
      | panic m => exact absurd hdsa (deserializeDSA_not_panic _ _)
      | err m => simp [Res.map]
      | ok rs =>
        refine ⟨by simp [Res.map], by simp [Res.map], by simp [Res.map], ?_⟩
        intro h' s hs
        simp only [Res.map, Res.ok.injEq, Prod.mk.injEq] at hs
        obtain ⟨rfl, rfl⟩ := hs
        exact ⟨rfl, Or.inl ⟨hle, rfl, by simp⟩⟩
  · rw [if_neg c1, if_neg c1]
    have hne64 : buf.len ≠ 64 := by
      intro e; rw [hsch64 e] at c1; exact c1 (by decide)
    by_cases c2 : sch = SM3withSM2
    · rw [if_pos c2, if_pos c2]
      by_cases c3 : zeroIndex ((dataOf buf).read h) ≥ (dataOf buf).len
      · rw [if_pos c3, if_pos c3]; simp
      · rw [if_neg c3, if_neg c3]
        cases hdsa : deserializeDSA (((dataOf buf).read h).drop (zeroIndex ((dataOf buf).read h) + 1)) with
        | panic m => exact absurd hdsa (deserializeDSA_not_panic _ _)
        | err m => simp [Res.map]
        | ok rs =>
          refine ⟨by simp [Res.map], by simp [Res.map], by simp [Res.map], ?_⟩
          intro h' s hs
          simp only [Res.map, Res.ok.injEq, Prod.mk.injEq] at hs
          obtain ⟨rfl, rfl⟩ := hs
          exact ⟨rfl, Or.inr (Or.inl ⟨by rw [c2]; rfl, rfl, by simp⟩)⟩
    · rw [if_neg c2, if_neg c2]
      by_cases c3 : sch = SHA512withEDDSA ∨ sch = KECCAK256WithECDSA
      · rw [if_pos c3, if_pos c3]
        refine ⟨by simp, by simp, by simp, ?_⟩
        intro h' s hs
        simp only [Res.ok.injEq, Prod.mk.injEq] at hs
        obtain ⟨rfl, rfl⟩ := hs
        refine ⟨?_, Or.inr (Or.inr ⟨c3, by rw [h64 hne64], hne64, by rw [h64 hne64]⟩)⟩
        unfold Sig.map Sig.essence Value.map
        simp only [alloc_bufOf]
      · rw [if_neg c3, if_neg c3]; simp

theorem deserializeDSA_split (rb sb : Bytes) (h : rb.length = sb.length) :
    deserializeDSA (rb ++ sb) = .ok (natOfBytes rb, natOfBytes sb) := by
  unfold deserializeDSA
  simp only [List.length_append]
  rw [if_neg (by omega), show (rb.length + sb.length) / 2 = rb.length by omega, List.take_left, List.drop_left]

theorem deserializeDSA_ok {b : Bytes} {rs : Nat × Nat} (h : deserializeDSA b = .ok rs) :
    ∃ rb sb : Bytes, b = rb ++ sb ∧ rb.length = sb.length ∧ rs = (natOfBytes rb, natOfBytes sb) := by
  unfold deserializeDSA at h
  simp only at h
  split_ifs at h with h1
  refine ⟨b.take (b.length / 2), b.drop (b.length / 2), (List.take_append_drop _ _).symm, ?_,
    (Res.ok.inj h).symm⟩
  rw [List.length_take, List.length_drop]; omega

/-- Parsing accepts exactly the documented format. -/
theorem parse_iff (b : Bytes) (s : Sig Bytes) : parse b = .ok s ↔ Format s b := by
  constructor
  · intro h
    unfold parse at h
    simp only at h
    by_cases h2 : b.length < 2
    · rw [if_pos h2] at h; cases h
    rw [if_neg h2] at h
    by_cases h64 : b.length = 64
    · simp only [if_pos h64] at h
      rw [if_pos (by decide), if_neg (by omega)] at h
      cases hd : deserializeDSA b with
      | panic m => rw [hd] at h; cases h
      | err m => rw [hd] at h; cases h
      | ok rs =>
        rw [hd] at h
        obtain ⟨rb, sb, rfl, hl, rfl⟩ := deserializeDSA_ok hd
        rw [← Res.ok.inj h]
        rw [List.length_append] at h64
        exact Format.bare rb sb (by omega) (by omega)
    · simp only [if_neg h64] at h
      cases b with
      | nil => simp at h2
      | cons sch d =>
        simp only [List.getD_cons_zero, List.drop_one, List.tail_cons, List.length_cons] at h h2 h64
        by_cases c1 : isECDSA sch = true
        · rw [if_pos c1] at h
          have hle := (isECDSA_iff sch).1 c1
          by_cases c2 : d.length = 65
          · rw [if_pos c2] at h
            rw [← Res.ok.inj h]
            exact Format.compact sch hle d c2
          · rw [if_neg c2] at h
            cases hd : deserializeDSA d with
            | panic m => rw [hd] at h; cases h
            | err m => rw [hd] at h; cases h
            | ok rs =>
              rw [hd] at h
              obtain ⟨rb, sb, rfl, hl, rfl⟩ := deserializeDSA_ok hd
              rw [← Res.ok.inj h]
              rw [List.length_append] at h2
              exact Format.dsa sch hle rb sb hl (by omega)
        · rw [if_neg c1] at h
          by_cases c2 : sch = SM3withSM2
          · rw [if_pos c2] at h
            obtain ⟨z1, z2, z3⟩ := zeroIndex_spec d
            by_cases c3 : zeroIndex d ≥ d.length
            · rw [if_pos c3] at h; cases h
            · rw [if_neg c3] at h
              cases hd : deserializeDSA (d.drop (zeroIndex d + 1)) with
              | panic m => rw [hd] at h; cases h
              | err m => rw [hd] at h; cases h
              | ok rs =>
                rw [hd] at h
                obtain ⟨rb, sb, he, hl, rfl⟩ := deserializeDSA_ok hd
                rw [← Res.ok.inj h]
                have hsplit : d = d.take (zeroIndex d) ++ 0 :: (rb ++ sb) := by
                  rw [← he, ← z3 (by omega), List.take_append_drop]
                have hlen := congrArg List.length hsplit
                simp only [List.length_append, List.length_cons] at hlen
                have := Format.sm2 (d.take (zeroIndex d)) rb sb z2 hl (by omega)
                rw [← hsplit] at this
                rw [c2]; exact this
          · rw [if_neg c2] at h
            by_cases c3 : sch = SHA512withEDDSA ∨ sch = KECCAK256WithECDSA
            · rw [if_pos c3] at h
              rw [← Res.ok.inj h]
              exact Format.raw sch c3 d (by omega) (by omega)
            · rw [if_neg c3] at h; cases h
  · intro h
    unfold parse
    cases h with
    | bare rb sb hr hs =>
      have hl : (rb ++ sb).length = 64 := by rw [List.length_append]; omega
      simp only [hl, if_true]
      rw [if_neg (by omega), if_pos (by decide), if_neg (by omega), deserializeDSA_split rb sb (by omega)]
      rfl
    | dsa sch hsch rb sb hl h0 =>
      have hb : (rb ++ sb).length = 2 * rb.length := by rw [List.length_append]; omega
      simp only [List.length_cons, List.getD_cons_zero, List.drop_one, List.tail_cons]
      have h64 : ¬ (rb ++ sb).length + 1 = 64 := by omega
      simp only [if_neg h64]
      rw [if_neg (by omega), if_pos ((isECDSA_iff sch).2 hsch), if_neg (by omega),
        deserializeDSA_split rb sb hl]
      rfl
    | compact sch hsch b hl =>
      simp only [List.length_cons, List.getD_cons_zero, List.drop_one, List.tail_cons]
      have h64 : ¬ b.length + 1 = 64 := by omega
      simp only [if_neg h64]
      rw [if_neg (by omega), if_pos ((isECDSA_iff sch).2 hsch), if_pos hl]
    | sm2 id rb sb hid hl h62 =>
      have hb : (id ++ 0 :: (rb ++ sb)).length = id.length + 1 + 2 * rb.length := by
        simp only [List.length_append, List.length_cons]; omega
      simp only [List.length_cons, List.getD_cons_zero, List.drop_one, List.tail_cons]
      have h64 : ¬ (id ++ 0 :: (rb ++ sb)).length + 1 = 64 := by omega
      simp only [if_neg h64]
      rw [if_neg (by omega), if_neg (by decide), if_pos True.intro, zeroIndex_append id _ hid, if_neg (by omega)]
      have e1 : (id ++ 0 :: (rb ++ sb)).drop (id.length + 1) = rb ++ sb := by
        rw [← List.drop_drop, List.drop_left]; rfl
      rw [e1, deserializeDSA_split rb sb hl, List.take_left]
      rfl
    | raw sch hsch b h0 hl =>
      simp only [List.length_cons, List.getD_cons_zero, List.drop_one, List.tail_cons]
      have h64 : ¬ b.length + 1 = 64 := by omega
      simp only [if_neg h64]
      rw [if_neg (by omega)]
      rcases hsch with rfl | rfl
      · rw [if_neg (by decide), if_neg (by decide), if_pos (Or.inl rfl)]
      · rw [if_neg (by decide), if_neg (by decide), if_pos (Or.inr rfl)]

/-! ## Serialization -/

theorem serializeDSA_eq (r s : Nat) (c : Curve) (hr : r < 256 ^ c.byteSize) (hs : s < 256 ^ c.byteSize) :
    serializeDSA r s (some c) = .ok (beFix c.byteSize r ++ beFix c.byteSize s) := by
  have hrl : (bytesOfNat r).length ≤ c.byteSize := by
    rw [bytesOfNat_length]; exact byteLen_le_iff.2 hr
  have hsl : (bytesOfNat s).length ≤ c.byteSize := by
    rw [bytesOfNat_length]; exact byteLen_le_iff.2 hs
  unfold serializeDSA
  simp only [Int.natAbs_natCast]
  rw [show (c.bitSize + 7) / 8 = c.byteSize from rfl, if_neg (by omega), if_neg (by omega)]
  generalize c.byteSize = L at *
  rw [show L * 2 = L + L by ring,
    EC.splice_zeros_right (L - (bytesOfNat r).length) L _ (bytesOfNat r) rfl (by omega) L,
    bytesOfNat_length r, zeros_append_bytesOfNat (byteLen_le_iff.2 hr)]
  congr 1
  rw [← zeros_append_bytesOfNat (byteLen_le_iff.2 hs), ← bytesOfNat_length]
  have hbl : (beFix L r).length = L := beFix_length _ _
  unfold splice
  rw [List.drop_eq_nil_of_le (by simp [hbl, zeros]; omega), List.append_nil,
    show L + L - (bytesOfNat s).length = L + (L - (bytesOfNat s).length) by omega,
    List.take_append, hbl, List.take_of_length_le (by omega)]
  unfold zeros
  rw [List.take_replicate, List.append_assoc]
  congr 3; omega

theorem byteSize_bound {k1name : String} {c : Curve} (hc : c ∈ Curves.all k1name) :
    c.N ≤ 256 ^ c.byteSize ∧ 1 ≤ c.byteSize := by
  obtain ⟨l, hl⟩ := mem_all_iff.1 hc
  cases hl with
  | k1 => exact (show (Curves.secp256k1 "").N ≤ 256 ^ (Curves.secp256k1 "").byteSize ∧
      1 ≤ (Curves.secp256k1 "").byteSize by decide +kernel)
  | _ => decide +kernel

/-- Serialized numbers parse back. -/
theorem serialize_dsa_format (sch : Scheme) (hsch : sch.toNat ≤ 8) (c : Curve) (hL : 1 ≤ c.byteSize) (r s : Nat)
    (hr : r < 256 ^ c.byteSize) (hs : s < 256 ^ c.byteSize) :
    ∃ b, serialize (some ⟨sch, .dsa r s (some c)⟩) = .ok b ∧ Format ⟨sch, .dsa r s none⟩ b := by
  unfold serialize serializeValue
  simp only [(isECDSA_iff sch).2 hsch, serializeDSA_eq r s c hr hs, Bool.not_true, Bool.false_eq_true,
    if_false, Res.map, List.length_cons, List.length_append, beFix_length]
  have hf := Format.dsa sch hsch (beFix c.byteSize r) (beFix c.byteSize s) (by simp) (by simp; omega)
  rw [natOfBytes_beFix_of_lt hr, natOfBytes_beFix_of_lt hs] at hf
  by_cases hc : sch = SHA256withECDSA ∧ c.byteSize + c.byteSize + 1 = 65
  · rw [if_pos hc]
    have h32 : c.byteSize = 32 := by omega
    refine ⟨_, rfl, ?_⟩
    have hb := Format.bare (beFix c.byteSize r) (beFix c.byteSize s) (by simp [h32]) (by simp [h32])
    rw [natOfBytes_beFix_of_lt hr, natOfBytes_beFix_of_lt hs] at hb
    rw [hc.1]; exact hb
  · rw [if_neg hc]; exact ⟨_, rfl, hf⟩

theorem serialize_sm2_format (c : Curve) (r s : Nat) (id : Bytes)
    (hid : (0 : Byte) ∉ id) (h62 : id.length + 2 * c.byteSize ≠ 62)
    (hr : r < 256 ^ c.byteSize) (hs : s < 256 ^ c.byteSize) :
    ∃ b, serialize (some ⟨9, .sm2 r s (some c) id⟩) = .ok b ∧ Format ⟨9, .sm2 r s none id⟩ b := by
  unfold serialize serializeValue
  have h9 : ¬ ((9 : Scheme) ≠ SM3withSM2) := by decide
  have h1 : ∀ n, ¬ ((9 : Scheme) = SHA256withECDSA ∧ n = 65) := fun n h => absurd h.1 (by decide)
  simp only [if_neg h9, serializeDSA_eq r s c hr hs, Res.map, if_neg (h1 _)]
  have hf := Format.sm2 id (beFix c.byteSize r) (beFix c.byteSize s) hid (by simp) (by simpa using h62)
  rw [natOfBytes_beFix_of_lt hr, natOfBytes_beFix_of_lt hs] at hf
  exact ⟨_, rfl, hf⟩

theorem serialize_bytes (sch : Scheme) (b sp : Bytes) (h : ¬ (sch = 1 ∧ b.length = 64)) :
    serialize (some ⟨sch, .bytes ⟨b, sp⟩⟩) = .ok (sch :: b) := by
  unfold serialize serializeValue
  simp only [Res.map, List.length_cons]
  rw [if_neg (by rintro ⟨h1, h2⟩; exact h ⟨h1, by omega⟩)]

/-! ## Signing -/

theorem hash_sm3 (E : Ext) : E.hash .sm3 = SM2.sm3Sum := rfl
theorem hash_keccak (E : Ext) : E.hash .keccak256 = E.extHash .keccak256 := rfl

/-- What `Sign` can return. -/
theorem sign_ok_cases {E : Ext} {fuel : Nat} {rand : Bytes} {scheme : Scheme} {pri : PrivateKey}
    {msg : Bytes} {opt : Opt} {sig : Sig Buf} (h : sign E fuel rand scheme pri msg opt = some (.ok sig)) :
    (∃ alg priv r s, pri = .ec alg priv ∧ scheme = 9 ∧
      SM2.sign E.sm2 SM2.sm3Sum fuel rand priv (optID opt) msg = some (.ok (r, s)) ∧
      sig = ⟨9, .sm2 r s (some priv.pub.curve) (optID opt)⟩) ∨
    (∃ alg priv a b, pri = .ec alg priv ∧ scheme.toNat ≤ 8 ∧ hashOf scheme = some a ∧
      priv.pub.curve.name = E.k1name ∧ E.signCompact priv (E.hash a msg) = .ok b ∧
      sig = ⟨scheme, .bytes ⟨b, []⟩⟩) ∨
    (∃ alg priv a r s, pri = .ec alg priv ∧ scheme.toNat ≤ 8 ∧ hashOf scheme = some a ∧
      priv.pub.curve.name ≠ E.k1name ∧ E.ecdsaSign priv (E.hash a msg) rand = .ok (r, s) ∧
      sig = ⟨scheme, .dsa r s (some priv.pub.curve)⟩) ∨
    (∃ key, pri = .ed key ∧ scheme = 10 ∧ key.length = 64 ∧ sig = ⟨10, .bytes ⟨E.edSig key msg, []⟩⟩) ∨
    (∃ priv b, pri = .eth priv ∧ scheme = 11 ∧
      E.ethSign (if opt = .bool true then E.extHash .keccak256 msg else msg) priv = .ok b ∧
      sig = ⟨11, .bytes ⟨b, []⟩⟩) := by
  unfold sign at h
  cases pri with
  | ec alg priv =>
    simp only at h
    cases hh : hashOf scheme with
    | none => rw [hh] at h; simp at h
    | some a =>
      rw [hh] at h
      simp only at h
      by_cases c1 : scheme = SM3withSM2
      · rw [if_pos c1] at h
        left
        rw [c1] at hh
        have ha : a = .sm3 := by
          have : hashOf SM3withSM2 = some .sm3 := rfl
          rw [this] at hh; exact (Option.some.inj hh).symm
        rw [ha, hash_sm3] at h
        obtain ⟨res, hr, hs⟩ := Option.map_eq_some_iff.1 h
        cases res with
        | err m => cases hs
        | panic m => cases hs
        | ok rs =>
          refine ⟨alg, priv, rs.1, rs.2, rfl, c1, hr, ?_⟩
          rw [← Res.ok.inj hs, c1]
      · rw [if_neg c1] at h
        by_cases c2 : isECDSA scheme = true
        · rw [if_pos c2] at h
          have hle := (isECDSA_iff scheme).1 c2
          have h := Option.some.inj h
          unfold signECDSA at h
          by_cases c3 : priv.pub.curve.name = E.k1name
          · rw [if_pos c3] at h
            right; left
            cases hs : secp256k1Sign E priv (E.hash a msg) with
            | err m => rw [hs] at h; cases h
            | panic m => rw [hs] at h; cases h
            | ok b =>
              rw [hs] at h
              exact ⟨alg, priv, a, b, rfl, hle, rfl, c3, hs, (Res.ok.inj h).symm⟩
          · rw [if_neg c3] at h
            right; right; left
            cases hs : E.ecdsaSign priv (E.hash a msg) rand with
            | err m => rw [hs] at h; cases h
            | panic m => rw [hs] at h; cases h
            | ok rs =>
              rw [hs] at h
              exact ⟨alg, priv, a, rs.1, rs.2, rfl, hle, rfl, c3, hs, (Res.ok.inj h).symm⟩
        · rw [if_neg c2] at h; simp at h
  | ed key =>
    simp only at h
    by_cases c1 : scheme ≠ SHA512withEDDSA
    · rw [if_pos c1] at h; simp at h
    · rw [if_neg c1] at h
      have c1 : scheme = SHA512withEDDSA := not_not.1 c1
      have h := Option.some.inj h
      unfold edSign at h
      right; right; right; left
      by_cases c2 : key.length ≠ 64
      · rw [if_pos c2] at h; cases h
      · rw [if_neg c2] at h
        refine ⟨key, rfl, c1, not_not.1 c2, ?_⟩
        rw [← Res.ok.inj h, c1]
  | eth priv =>
    simp only at h
    by_cases c1 : scheme ≠ KECCAK256WithECDSA
    · rw [if_pos c1] at h; simp at h
    · rw [if_neg c1] at h
      have c1 : scheme = KECCAK256WithECDSA := not_not.1 c1
      right; right; right; right
      have hk : hashOf KECCAK256WithECDSA = some .keccak256 := rfl
      rw [c1, hk] at h
      simp only [hash_keccak] at h
      by_cases c2 : optApplyHash opt = true
      · have c3 : opt = .bool true := by
          cases opt with
          | bool b => exact congrArg Opt.bool c2
          | _ => cases c2
        rw [if_pos c2] at h
        have h := Option.some.inj h
        rw [if_pos c3]
        cases hs : E.ethSign (E.extHash .keccak256 msg) priv with
        | err m => rw [hs] at h; cases h
        | panic m => rw [hs] at h; cases h
        | ok b => rw [hs] at h; exact ⟨priv, b, rfl, c1, hs, (Res.ok.inj h).symm⟩
      · have c3 : ¬ opt = .bool true := fun e => c2 (by rw [e]; rfl)
        rw [if_neg c2] at h
        have h := Option.some.inj h
        rw [if_neg c3]
        cases hs : E.ethSign msg priv with
        | err m => rw [hs] at h; cases h
        | panic m => rw [hs] at h; cases h
        | ok b => rw [hs] at h; exact ⟨priv, b, rfl, c1, hs, (Res.ok.inj h).symm⟩
  | unknown => simp at h

/-- `Verify` looks at the essence of a signature only (and, for Ethereum keys, at 64 bytes of the
buffer). -/
theorem verify_essence (E : Ext) (pub : PublicKey) (msg : Bytes) {s t : Sig Buf}
    (h : s.essence = t.essence)
    (h64 : ∀ b, s.scheme = 11 → s.value = .bytes b → 64 ≤ b.data.length) :
    verify E pub msg (some s) = verify E pub msg (some t) := by
  obtain ⟨sch, v⟩ := s
  obtain ⟨sch', v'⟩ := t
  simp only [Sig.essence, Sig.mk.injEq] at h
  obtain ⟨rfl, hv⟩ := h
  cases v <;> cases v' <;> simp only [Value.dsa.injEq, Value.sm2.injEq, Value.bytes.injEq, reduceCtorEq] at hv
  · obtain ⟨rfl, rfl, -⟩ := hv
    unfold verify verifyEth; rfl
  · obtain ⟨rfl, rfl, -, rfl⟩ := hv
    unfold verify verifyEth; rfl
  · rename_i b b'
    obtain ⟨d, sp⟩ := b
    obtain ⟨d', sp'⟩ := b'
    simp only at hv
    subst hv
    have key : ∀ key : ECPub, sch = KECCAK256WithECDSA →
        verifyEth E key msg (.bytes ⟨d, sp⟩) = verifyEth E key msg (.bytes ⟨d, sp'⟩) := by
      intro key hs
      have hd : 64 ≤ d.length := h64 ⟨d, sp⟩ hs rfl
      unfold verifyEth
      simp only
      rw [if_neg (show ¬ (d ++ sp).length < 64 by rw [List.length_append]; omega),
        if_neg (show ¬ (d ++ sp').length < 64 by rw [List.length_append]; omega), List.take_append_of_le_length hd, List.take_append_of_le_length hd]
    unfold verify
    cases pub with
    | eth k =>
      simp only
      by_cases hs : sch = KECCAK256WithECDSA
      · rw [key k hs]
      · have : sch ≠ KECCAK256WithECDSA := hs
        simp only [if_pos this]
    | _ => rfl
  · rfl

end Verif.Signature
