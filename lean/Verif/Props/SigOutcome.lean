import Verif.Props.Signature
/-!
# What Sign, Verify, Serialize and Deserialize do with any arguments (C30, C113)

The fields of `Signature` are exported, so callers can also build signature values by hand.
-/
namespace Verif.Props
open Verif Verif.Spec Verif.Keypair Verif.Signature

/-! ## Serialize -/

theorem serializeDSA_cases (r s : Int) (c : Curve) :
    ((∃ m, serializeDSA r s (some c) = .panic m) ∧
      (256 ^ c.byteSize ≤ r.natAbs ∨ 256 ^ (2 * c.byteSize) ≤ s.natAbs)) ∨
    ((∃ b, serializeDSA r s (some c) = .ok b ∧ b.length = 2 * c.byteSize) ∧
      r.natAbs < 256 ^ c.byteSize ∧ s.natAbs < 256 ^ (2 * c.byteSize)) := by
  unfold serializeDSA
  dsimp only
  rw [show (c.bitSize + 7) / 8 = c.byteSize from rfl]
  simp only [bytesOfNat_length]
  have hr := @byteLen_le_iff r.natAbs c.byteSize
  have hs := @byteLen_le_iff s.natAbs (2 * c.byteSize)
  split_ifs with h1 h2
  · exact Or.inl ⟨⟨_, rfl⟩, by omega⟩
  · exact Or.inl ⟨⟨_, rfl⟩, by omega⟩
  · refine Or.inr ⟨⟨_, rfl, ?_⟩, by omega, by omega⟩
    have hz : (zeros (c.byteSize * 2)).length = c.byteSize * 2 := by simp [zeros]
    have l1 := splice_length (zeros (c.byteSize * 2)) (c.byteSize - byteLen r.natAbs) (bytesOfNat r.natAbs)
      (by rw [bytesOfNat_length, hz]; omega)
    rw [splice_length _ _ _ (by rw [bytesOfNat_length, l1, hz]; omega), l1, hz]
    omega

/-- The signatures that have a serialized form: numbers that fit the curve, an id without zero byte, bytes of a kind
that `Deserialize` knows. The one collision of lengths, 64 bytes in all, is excluded: such strings are read as bare
ECDSA signatures. -/
def Transportable (sig : Sig Buf) : Prop :=
  match sig.value with
  | .dsa r s c => sig.scheme.toNat ≤ 8 ∧ ∃ c', c = some c' ∧ 1 ≤ c'.byteSize ∧
      0 ≤ r ∧ r < 256 ^ c'.byteSize ∧ 0 ≤ s ∧ s < 256 ^ c'.byteSize
  | .sm2 r s c id => sig.scheme = 9 ∧ (0 : Byte) ∉ id ∧ ∃ c', c = some c' ∧ id.length + 2 * c'.byteSize ≠ 62 ∧
      0 ≤ r ∧ r < 256 ^ c'.byteSize ∧ 0 ≤ s ∧ s < 256 ^ c'.byteSize
  | .bytes b => (sig.scheme.toNat ≤ 8 ∧ b.data.length = 65) ∨
      ((sig.scheme = 10 ∨ sig.scheme = 11) ∧ b.data.length ≠ 0 ∧ b.data.length ≠ 63)
  | .other => False

theorem cast_lt_pow {rb : Bytes} {n : Nat} (h : rb.length = n) : ((natOfBytes rb : Nat) : Int) < 256 ^ n := by
  have := natOfBytes_lt rb
  rw [h] at this
  exact_mod_cast this

theorem kept_iff (sig : Sig Buf) :
    (∃ b, serialize (some sig) = .ok b ∧ Format sig.essence b) ↔ Transportable sig := by
  obtain ⟨sch, v⟩ := sig
  cases v with
  | other =>
    simp only [Transportable, iff_false]
    rintro ⟨b, h, -⟩
    simp [serialize, serializeValue, Res.map] at h
  | bytes d =>
    obtain ⟨d, sp⟩ := d
    simp only [Transportable]
    constructor
    · rintro ⟨b, h1, h2⟩
      have he : (⟨sch, .bytes ⟨d, sp⟩⟩ : Sig Buf).essence = ⟨sch, .bytes d⟩ := rfl
      rw [he] at h2
      generalize hx : (⟨sch, .bytes d⟩ : Sig Bytes) = x at h2
      cases h2 with
      | bare => simp at hx
      | dsa => simp at hx
      | sm2 => simp at hx
      | compact sch' hsch b' hl =>
        simp only [Sig.mk.injEq, Value.bytes.injEq] at hx
        obtain ⟨rfl, rfl⟩ := hx
        exact Or.inl ⟨hsch, hl⟩
      | raw sch' hsch b' h0 hl =>
        simp only [Sig.mk.injEq, Value.bytes.injEq] at hx
        obtain ⟨rfl, rfl⟩ := hx
        exact Or.inr ⟨hsch, h0, hl⟩
    · rintro (⟨h1, h2⟩ | ⟨h1, h2, h3⟩)
      · exact ⟨_, serialize_bytes sch d sp (by omega), Format.compact sch h1 d h2⟩
      · refine ⟨_, serialize_bytes sch d sp ?_, Format.raw sch h1 d h2 h3⟩
        rintro ⟨rfl, -⟩
        revert h1; decide
  | dsa r s c =>
    simp only [Transportable]
    constructor
    · rintro ⟨b, h1, h2⟩
      have he : (⟨sch, .dsa r s c⟩ : Sig Buf).essence = ⟨sch, .dsa r s none⟩ := rfl
      rw [he] at h2
      have hsch : sch.toNat ≤ 8 := by
        generalize hx : (⟨sch, .dsa r s none⟩ : Sig Bytes) = x at h2
        cases h2 <;> simp only [Sig.mk.injEq, reduceCtorEq, and_false] at hx
        · rw [hx.1]; decide
        · rw [hx.1]; assumption
      refine ⟨hsch, ?_⟩
      unfold serialize serializeValue at h1
      simp only [(isECDSA_iff sch).2 hsch, Bool.not_true, Bool.false_eq_true, if_false] at h1
      cases c with
      | none => simp [serializeDSA, Res.map] at h1
      | some c' =>
        rcases serializeDSA_cases r s c' with ⟨⟨m, hm⟩, -⟩ | ⟨⟨d, hd, hl⟩, -, -⟩
        · rw [hm] at h1; simp [Res.map] at h1
        · rw [hd] at h1
          simp only [Res.map, Res.ok.injEq, List.length_cons] at h1
          generalize hx : (⟨sch, .dsa r s none⟩ : Sig Bytes) = x at h2
          have fin : ∀ rb sb : Bytes, rb.length = c'.byteSize → sb.length = c'.byteSize → 1 ≤ c'.byteSize →
              r = natOfBytes rb → s = natOfBytes sb → ∃ c'', some c' = some c'' ∧ 1 ≤ c''.byteSize ∧
                0 ≤ r ∧ r < 256 ^ c''.byteSize ∧ 0 ≤ s ∧ s < 256 ^ c''.byteSize := by
            rintro rb sb k1 k2 k3 rfl rfl
            exact ⟨c', rfl, k3, Int.natCast_nonneg _, cast_lt_pow k1, Int.natCast_nonneg _, cast_lt_pow k2⟩
          cases h2 with
          | sm2 => simp at hx
          | compact => simp at hx
          | raw => simp at hx
          | bare rb sb hr hs =>
            simp only [Sig.mk.injEq, Value.dsa.injEq] at hx
            obtain ⟨rfl, rfl, rfl, -⟩ := hx
            have hb := congrArg List.length h1
            split_ifs at hb with hc
            · exact fin rb sb (by omega) (by omega) (by omega) rfl rfl
            · simp only [List.length_cons, List.length_append] at hb
              omega
          | dsa sch' hsch' rb sb h h0 =>
            simp only [Sig.mk.injEq, Value.dsa.injEq] at hx
            obtain ⟨rfl, rfl, rfl, -⟩ := hx
            have hb := congrArg List.length h1
            split_ifs at hb with hc
            · simp only [List.drop_one, List.tail_cons, List.length_cons, List.length_append] at hb
              omega
            · simp only [List.length_cons, List.length_append] at hb
              exact fin rb sb (by omega) (by omega) (by omega) rfl rfl
    · rintro ⟨hsch, c', rfl, h1, h2, h3, h4, h5⟩
      obtain ⟨r, rfl⟩ := Int.eq_ofNat_of_zero_le h2
      obtain ⟨s, rfl⟩ := Int.eq_ofNat_of_zero_le h4
      exact serialize_dsa_format sch hsch c' h1 r s (by exact_mod_cast h3) (by exact_mod_cast h5)
  | sm2 r s c id =>
    simp only [Transportable]
    constructor
    · rintro ⟨b, h1, h2⟩
      have he : (⟨sch, .sm2 r s c id⟩ : Sig Buf).essence = ⟨sch, .sm2 r s none id⟩ := rfl
      rw [he] at h2
      generalize hx : (⟨sch, .sm2 r s none id⟩ : Sig Bytes) = x at h2
      cases h2 with
      | bare => simp at hx
      | dsa => simp at hx
      | compact => simp at hx
      | raw => simp at hx
      | sm2 id' rb sb hid h hl =>
        simp only [Sig.mk.injEq, Value.sm2.injEq] at hx
        obtain ⟨rfl, rfl, rfl, -, rfl⟩ := hx
        refine ⟨rfl, hid, ?_⟩
        unfold serialize serializeValue at h1
        have h9 : ¬ ((9 : Scheme) ≠ SM3withSM2) := by decide
        have h1' : ∀ n, ¬ ((9 : Scheme) = SHA256withECDSA ∧ n = 65) := fun n h => absurd h.1 (by decide)
        simp only [if_neg h9] at h1
        cases c with
        | none => simp [serializeDSA, Res.map] at h1
        | some c' =>
          rcases serializeDSA_cases (natOfBytes rb) (natOfBytes sb) c' with ⟨⟨m, hm⟩, -⟩ | ⟨⟨d, hd, hdl⟩, -, -⟩
          · rw [hm] at h1; simp [Res.map] at h1
          · rw [hd] at h1
            simp only [Res.map, Res.ok.injEq, if_neg (h1' _)] at h1
            have hb := congrArg List.length h1
            simp only [List.length_cons, List.length_append] at hb
            refine ⟨c', rfl, by omega, Int.natCast_nonneg _, cast_lt_pow (by omega), Int.natCast_nonneg _,
              cast_lt_pow (by omega)⟩
    · rintro ⟨rfl, hid, c', rfl, h1, h2, h3, h4, h5⟩
      obtain ⟨r, rfl⟩ := Int.eq_ofNat_of_zero_le h2
      obtain ⟨s, rfl⟩ := Int.eq_ofNat_of_zero_le h4
      exact serialize_sm2_format c' r s id hid h1 (by exact_mod_cast h3) (by exact_mod_cast h5)

/-- **C30** Exactly which signatures survive, for every signature value, made by `Sign` or by hand: `Serialize`
succeeds with bytes from which `Deserialize` gets the same scheme, numbers, bytes and user id if and only if the
signature is transportable. -/
theorem C30_kept_iff (sig : Sig Buf) :
    (∃ b, serialize (some sig) = .ok b ∧ ∀ h buf, buf.Valid h → buf.read h = b →
      ∃ h' s', deserialize h buf = .ok (h', s') ∧ (s'.map (bufOf h')).essence = sig.essence) ↔
    Transportable sig := by
  rw [← kept_iff]
  constructor
  · rintro ⟨b, h1, h2⟩
    refine ⟨b, h1, ?_⟩
    have hv : (Heap.alloc ⟨fun _ => [], 0⟩ b).2.Valid (Heap.alloc ⟨fun _ => [], 0⟩ b).1 := by
      simp [Slice.Valid, Heap.alloc]
    have := ((C32_deserialize_format _ _ hv).1 sig.essence).2 (h2 _ _ hv (alloc_read _ b))
    rwa [alloc_read] at this
  · rintro ⟨b, h1, h2⟩
    exact ⟨b, h1, fun h buf hv hr => ((C32_deserialize_format h buf hv).1 _).1 (hr ▸ h2)⟩

/-- The numbers cannot be written: the curve is missing or they are too long. The second number may be twice as long
as it should be; it then overwrites the first (`C30_kept_iff`). -/
def NoRoom (r s : Int) (c : Option Curve) : Prop :=
  ∀ c', c = some c' → 256 ^ c'.byteSize ≤ r.natAbs ∨ 256 ^ (2 * c'.byteSize) ≤ s.natAbs

theorem serializeDSA_panics_iff (r s : Int) (c : Option Curve) :
    ((∃ m, serializeDSA r s c = .panic m) ↔ NoRoom r s c) ∧ ∀ m, serializeDSA r s c ≠ .err m := by
  cases c with
  | none =>
    refine ⟨Iff.intro (fun _ c' h => by cases h) (fun _ => ⟨_, rfl⟩), by simp [serializeDSA]⟩
  | some c =>
    rcases serializeDSA_cases r s c with ⟨⟨m, hm⟩, h⟩ | ⟨⟨b, hb, -⟩, h1, h2⟩
    · refine ⟨⟨fun _ c' hc => ?_, fun _ => ⟨m, hm⟩⟩, by simp [hm]⟩
      rw [← Option.some.inj hc]; exact h
    · refine ⟨Iff.intro (fun ⟨m, hm⟩ => by rw [hb] at hm; cases hm) (fun h => ?_), by simp [hb]⟩
      have := h c rfl
      omega

theorem map_panic_iff {α β : Type} (x : Res α) (f : α → β) :
    ((∃ m, x.map f = .panic m) ↔ ∃ m, x = .panic m) ∧ ((∃ m, x.map f = .err m) ↔ ∃ m, x = .err m) := by
  cases x <;> simp [Res.map]

/-- **C113** What `Serialize` does with any signature value: it panics exactly when the value has numbers that match
the scheme and the curve is missing or the numbers are too long; it returns an error exactly when the value does not
match the scheme or is of no known type. -/
theorem C113_serialize (sig : Sig Buf) :
    ((∃ m, serialize (some sig) = .panic m) ↔
      (∃ r s c, sig.value = .dsa r s c ∧ sig.scheme.toNat ≤ 8 ∧ NoRoom r s c) ∨
      (∃ r s c id, sig.value = .sm2 r s c id ∧ sig.scheme = 9 ∧ NoRoom r s c)) ∧
    ((∃ m, serialize (some sig) = .err m) ↔
      (∃ r s c, sig.value = .dsa r s c ∧ ¬ sig.scheme.toNat ≤ 8) ∨
      (∃ r s c id, sig.value = .sm2 r s c id ∧ sig.scheme ≠ 9) ∨ sig.value = .other) ∧
    (∃ m, serialize none = .err m) := by
  obtain ⟨sch, v⟩ := sig
  refine ⟨?_, ?_, ⟨_, rfl⟩⟩
  all_goals
    unfold serialize
    dsimp only
    first
    | rw [(map_panic_iff _ _).1]
    | rw [(map_panic_iff _ _).2]
    unfold serializeValue
    cases v with
    | other => simp
    | bytes b => simp
    | dsa r s c =>
      obtain ⟨h1, h2⟩ := serializeDSA_panics_iff r s c
      by_cases hsch : sch.toNat ≤ 8
      · simp only [(isECDSA_iff sch).2 hsch, Bool.not_true, Bool.false_eq_true, if_false]
        simp [(map_panic_iff _ _).1, (map_panic_iff _ _).2, h1, h2, hsch]
      · simp [isECDSA_false hsch, hsch]
    | sm2 r s c id =>
      obtain ⟨h1, h2⟩ := serializeDSA_panics_iff r s c
      by_cases hsch : sch = 9
      · simp [(map_panic_iff _ _).1, (map_panic_iff _ _).2, h1, h2, hsch]
      · have : sch ≠ 9#8 := hsch
        simp [this]

/-! ## Verify -/

/-- **C113** What `Verify` does with any signature value: it panics exactly when the message is not empty and
* the key is an Ethereum key, the scheme is its scheme, and the value is not a byte slice with room for 64 bytes,
* or the key is an Ed25519 key, the scheme is its scheme, and the value is not a byte slice or the key does not have
  32 bytes,
* or the key is an EC key, the scheme an ECDSA scheme, the value a byte slice, and btcec panics on it. -/
theorem C113_verify_panics_iff (E : Signature.Ext) (pub : PublicKey) (msg : Bytes) (sig : Sig Buf) :
    (∃ m, verify E pub msg (some sig) = .panic m) ↔
      msg ≠ [] ∧
      ((∃ k, pub = .eth k ∧ sig.scheme = 11 ∧
          ∀ b, sig.value = .bytes b → b.data.length + b.spare.length < 64) ∨
       (∃ k, pub = .ed k ∧ sig.scheme = 10 ∧ ∀ b, sig.value = .bytes b → k.length ≠ 32) ∨
       (∃ alg k a b m, pub = .ec alg k ∧ sig.scheme.toNat ≤ 8 ∧ hashOf sig.scheme = some a ∧ sig.value = .bytes b ∧
          E.recoverCompact b.data (E.hash a msg) = .panic m)) := by
  obtain ⟨sch, v⟩ := sig
  unfold verify
  dsimp only
  by_cases hm : msg = []
  · simp [hm]
  rw [if_neg (by simpa using hm)]
  by_cases hsch : sch.toNat ≤ 11
  swap
  · have : hashOf sch = none := by
      cases h : hashOf sch with
      | none => rfl
      | some a => exact absurd ((hashOf_isSome sch).1 (by simp [h])) hsch
    rw [this]
    have h11 : sch ≠ 11#8 := by rintro rfl; exact hsch (by decide)
    have h10 : sch ≠ 10#8 := by rintro rfl; exact hsch (by decide)
    simp [h11, h10]
  obtain ⟨a, ha⟩ := hashOf_of_le hsch
  rw [ha]
  dsimp only
  cases pub with
  | unknown => simp
  | ec alg k =>
    dsimp only
    by_cases h8 : sch.toNat ≤ 8
    · rw [if_pos ((isECDSA_iff sch).2 h8)]
      cases v with
      | bytes b =>
        dsimp only [secp256k1Verify]
        cases hr : E.recoverCompact b.data (E.hash a msg) with
        | ok xy => obtain ⟨x, y⟩ := xy; simp [hm, h8, hr]
        | err m => simp [hm, h8, hr]
        | panic m => simp [hm, h8, hr]
      | _ => simp
    · rw [if_neg (by rw [isECDSA_iff]; exact h8)]
      by_cases h9 : sch = SM3withSM2
      · rw [if_pos h9]; cases v <;> simp [h8]
      · rw [if_neg h9]; simp [h8]
  | ed k =>
    dsimp only
    by_cases h10 : sch = SHA512withEDDSA
    · rw [if_pos h10]
      have h10' : sch = 10 := h10
      cases v with
      | bytes b =>
        dsimp only [edVerify]
        by_cases hk : k.length = 32 <;> simp [hm, h10', hk]
      | _ => simp [hm, h10']
    · rw [if_neg h10]
      have h10' : sch ≠ 10#8 := h10
      simp [h10']
  | eth k =>
    dsimp only
    by_cases h11 : sch = KECCAK256WithECDSA
    · rw [if_neg (by simpa using h11)]
      have h11' : sch = 11 := h11
      unfold verifyEth
      cases v with
      | bytes b =>
        dsimp only
        rw [show hashOf KECCAK256WithECDSA = some .keccak256 from rfl]
        dsimp only
        by_cases hl : (b.data ++ b.spare).length < 64
        · rw [if_pos hl]
          rw [List.length_append] at hl
          simp [hm, h11', hl]
        · rw [if_neg hl]
          rw [List.length_append] at hl
          split_ifs <;> simp [hm, h11', hl]
      | _ => simp [hm, h11']
    · rw [if_pos h11]
      have h11' : sch ≠ 11#8 := h11
      simp [h11']

/-! ## Sign -/

/-- The user id in the option: a string, and no id for anything else. -/
def userIDOf : Opt → Bytes
  | .str id => id
  | .bool _ => []
  | .other => []

/-- **C113** What `Sign` returns: a signature with the scheme that was asked for, whose value is
* for SM3withSM2 a pair of numbers from 1 to n - 1 with the key's curve and the user id of the option,
* for an ECDSA scheme on secp256k1 65 bytes, and on any other curve a pair of numbers below its order with the curve,
* for Ed25519 64 bytes and for Ethereum 65 bytes. -/
theorem C113_sign_result (E : Signature.Ext) (hE : E.Lawful) (fuel : Nat) (rand : Bytes) (scheme : Scheme)
    (pri : PrivateKey) (hv : ValidKey E pri) (msg : Bytes) (opt : Opt) (sig : Sig Buf)
    (hs : sign E fuel rand scheme pri msg opt = some (.ok sig)) :
    sig.scheme = scheme ∧
    match pri with
    | .ec _ priv =>
      if scheme = 9 then
        priv.pub.curve = Curves.sm2 ∧ ∃ r s : Nat, 1 ≤ r ∧ r < Curves.sm2.N ∧ 1 ≤ s ∧ s < Curves.sm2.N ∧
          sig.value = .sm2 r s (some Curves.sm2) (userIDOf opt)
      else scheme.toNat ≤ 8 ∧
        if priv.pub.curve.name = E.k1name then ∃ b : Bytes, b.length = 65 ∧ sig.value = .bytes ⟨b, []⟩
        else ∃ r s : Nat, r < priv.pub.curve.N ∧ s < priv.pub.curve.N ∧
          sig.value = .dsa r s (some priv.pub.curve)
    | .ed _ => scheme = 10 ∧ ∃ b : Bytes, b.length = 64 ∧ sig.value = .bytes ⟨b, []⟩
    | .eth _ => scheme = 11 ∧ ∃ b : Bytes, b.length = 65 ∧ sig.value = .bytes ⟨b, []⟩
    | .unknown => False := by
  rcases sign_ok_cases hs with ⟨alg, priv, r, s, rfl, rfl, hsm, rfl⟩ |
    ⟨alg, priv, a, b, rfl, hle, ha, hn, hc, rfl⟩ | ⟨alg, priv, a, r, s, rfl, hle, ha, hn, hec, rfl⟩ |
    ⟨key, rfl, rfl, hl, rfl⟩ | ⟨priv, b, rfl, rfl, he, rfl⟩
  · refine ⟨rfl, ?_⟩
    obtain ⟨mz, hz, hcrv, -⟩ := SM2.sign_ok hsm
    have := good_sm2.fact
    obtain ⟨G, hG⟩ := good_sm2.exists_G
    obtain ⟨h1, h2, h3, h4, -⟩ := C40_sign_values E.sm2 hE.sm2 SM2.sm3Sum G hG priv fuel rand (optID opt) msg r s hsm
    dsimp only
    rw [if_pos rfl]
    refine ⟨hcrv, r, s, h1, h2, h3, h4, ?_⟩
    rw [hcrv]
    cases opt <;> rfl
  · refine ⟨rfl, ?_⟩
    have hne : ¬ scheme = 9 := by rintro rfl; revert hle; decide
    dsimp only
    rw [if_neg hne, if_pos hn]
    exact ⟨hle, b, (hE.compact priv _ b (ethPair_of_ec hE.k1name hv hn) hc).1, rfl⟩
  · refine ⟨rfl, ?_⟩
    have hne : ¬ scheme = 9 := by rintro rfl; revert hle; decide
    dsimp only
    rw [if_neg hne, if_neg hn]
    have hv : ECPair E.k1name priv := hv
    have hg := good_of_mem E.k1name hE.k1name _ hv.1
    have := hg.fact
    obtain ⟨G, hG⟩ := hg.exists_G
    obtain ⟨hr, hs⟩ := Signed_lt hg.order_prime.pos (hE.ecdsa_sign priv _ _ r s hv hec G hG)
    exact ⟨hle, r, s, hr, hs, rfl⟩
  · exact ⟨rfl, rfl, _, hE.ed_sig key msg, rfl⟩
  · exact ⟨rfl, rfl, b, (hE.eth_sign priv _ b hv he).2.1, rfl⟩

/-- **C113** Exactly when `Sign` panics: for an Ed25519 key that does not have 64 bytes and its scheme, or when one of
the libraries panics. -/
theorem C113_sign_panics_iff (E : Signature.Ext) (fuel : Nat) (rand : Bytes) (scheme : Scheme) (pri : PrivateKey)
    (msg : Bytes) (opt : Opt) :
    (∃ m, sign E fuel rand scheme pri msg opt = some (.panic m)) ↔
      (∃ k, pri = .ed k ∧ scheme = 10 ∧ k.length ≠ 64) ∨
      (∃ alg priv a m, pri = .ec alg priv ∧ scheme.toNat ≤ 8 ∧ hashOf scheme = some a ∧
        if priv.pub.curve.name = E.k1name then E.signCompact priv (E.hash a msg) = .panic m
        else E.ecdsaSign priv (E.hash a msg) rand = .panic m) ∨
      (∃ priv m, pri = .eth priv ∧ scheme = 11 ∧
        E.ethSign (if opt = .bool true then E.extHash .keccak256 msg else msg) priv = .panic m) := by
  unfold sign
  cases pri with
  | unknown => simp
  | ed k =>
    dsimp only
    by_cases h10 : scheme = SHA512withEDDSA
    · rw [if_neg (by simpa using h10)]
      have h10' : scheme = 10 := h10
      unfold edSign
      by_cases hk : k.length = 64 <;> simp [hk, h10', Res.map]
    · rw [if_pos h10]
      have h10' : scheme ≠ 10#8 := h10
      simp [h10']
  | eth priv =>
    dsimp only
    by_cases h11 : scheme = KECCAK256WithECDSA
    · rw [if_neg (by simpa using h11), h11, show hashOf KECCAK256WithECDSA = some .keccak256 from rfl]
      dsimp only
      have ho : optApplyHash opt = true ↔ opt = .bool true := by
        cases opt with
        | bool b => simp [optApplyHash]
        | _ => simp [optApplyHash]
      rw [hash_keccak]
      by_cases hb : opt = .bool true
      · rw [if_pos (ho.2 hb), if_pos hb]
        simp [(map_panic_iff _ _).1]
      · rw [if_neg (by rw [ho]; exact hb), if_neg hb]
        simp [(map_panic_iff _ _).1]
    · rw [if_pos h11]
      have h11' : scheme ≠ 11#8 := h11
      simp [h11']
  | ec alg priv =>
    dsimp only
    cases hh : hashOf scheme with
    | none => simp
    | some a =>
      dsimp only
      by_cases h9 : scheme = SM3withSM2
      · rw [if_pos h9]
        have hle : ¬ scheme.toNat ≤ 8 := by rw [h9]; decide
        have hnp : ∀ m, SM2.sign E.sm2 (E.hash a) fuel rand priv (optID opt) msg ≠ some (.panic m) := by
          intro m
          unfold SM2.sign SM2.getZ
          by_cases hc : priv.pub.curve = Curves.sm2
          · rw [if_neg (by simpa using hc)]
            dsimp only
            by_cases hl : rand.length < SM2.entropyLen priv.pub.curve
            · rw [if_pos hl]; simp
            · rw [if_neg hl]
              intro h
              obtain ⟨x, -, hx⟩ := Option.map_eq_some_iff.1 h
              cases hx
          · rw [if_pos hc]; simp
        constructor
        · rintro ⟨m, hm⟩
          obtain ⟨x, hx, hx'⟩ := Option.map_eq_some_iff.1 hm
          obtain ⟨m', rfl⟩ := (map_panic_iff _ _).1.1 ⟨m, hx'⟩
          exact absurd hx (hnp m')
        · simp [hle]
      · rw [if_neg h9]
        by_cases h8 : isECDSA scheme = true
        · rw [if_pos h8]
          have hle := (isECDSA_iff scheme).1 h8
          unfold signECDSA
          by_cases hk : priv.pub.curve.name = E.k1name
          · rw [if_pos hk]
            simp [(map_panic_iff _ _).1, hle, hk, secp256k1Sign]
          · rw [if_neg hk]
            simp [(map_panic_iff _ _).1, hle, hk]
        · rw [if_neg h8]
          have hle : ¬ scheme.toNat ≤ 8 := fun h => h8 ((isECDSA_iff scheme).2 h)
          simp [hle]

/-- **C113** The algorithm a key is labelled with (ECDSA or SM2) makes no difference to `Sign` and `Verify`: only its
curve does. -/
theorem C113_label_ignored (E : Signature.Ext) (alg alg' : Alg) (fuel : Nat) (rand : Bytes) (scheme : Scheme)
    (priv : ECPriv) (pub : ECPub) (msg : Bytes) (opt : Opt) (sig : Option (Sig Buf)) :
    sign E fuel rand scheme (.ec alg priv) msg opt = sign E fuel rand scheme (.ec alg' priv) msg opt ∧
    verify E (.ec alg pub) msg sig = verify E (.ec alg' pub) msg sig := ⟨rfl, rfl⟩

/-! ## Cases that meet the hypotheses -/

/-- A signature of 65 bytes that serializes but is not kept: the second number is too long and overwrites the first. -/
example : ∃ b, serialize (some ⟨1, .dsa 5 (256 ^ 32 + 7) (some Curves.p256)⟩) = .ok b ∧
    ¬ Transportable ⟨1, .dsa 5 (256 ^ 32 + 7) (some Curves.p256)⟩ := by
  refine ⟨_, rfl, ?_⟩
  simp only [Transportable]
  rintro ⟨-, c', hc, -, -, -, -, h⟩
  rw [← Option.some.inj hc] at h
  revert h
  decide

example : Transportable ⟨9, .sm2 5 7 (some Curves.sm2) [65, 66]⟩ :=
  ⟨rfl, by decide, Curves.sm2, rfl, by decide, by decide, by decide, by decide, by decide⟩

example : ¬ Transportable ⟨11, .bytes ⟨zeros 63, []⟩⟩ := by
  rintro (⟨-, h⟩ | ⟨-, -, h⟩)
  · revert h; decide
  · exact h (by decide)

end Verif.Props
