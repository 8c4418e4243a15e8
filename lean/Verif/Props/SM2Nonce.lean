import Verif.Props.SM2Sign
import Mathlib.Data.Int.CardIntervalMod
/-!
# C92-C94: what an SM2 signature binds, and its nonces

Nothing computational is assumed of the hash functions. That two strings are hashed which are equal for
equal inputs only is said by a function `f` from the inputs to the string that is the same for *every* hash
function `H`, and injective: two inputs with the same digest are then a collision of `H`.
-/
namespace Verif.Props
open Verif Verif.Spec

/-! ## C92: the signed digest -/

/-- **C92** The digest is `H (H (f id pub) ‖ msg)` where `f id pub` determines the user id (the empty one
stands for the default) and the bytes of the coordinates. Holds for ids of any length, also those whose
length in bits does not fit into two bytes. -/
theorem C92_input : ∃ f : Bytes → ECPub → Bytes,
    (∀ H msg pub id, pub.curve = Curves.sm2 → SM2.getZ H msg pub id = .ok (H (f id pub) ++ msg)) ∧
    ∀ id id' pub pub', pub.x < Curves.sm2.P → pub.y < Curves.sm2.P → pub'.x < Curves.sm2.P →
      pub'.y < Curves.sm2.P → f id pub = f id' pub' →
      sm2ID id = sm2ID id' ∧ bytesOfNat pub.x ++ bytesOfNat pub.y = bytesOfNat pub'.x ++ bytesOfNat pub'.y := by
  refine ⟨fun id pub => [BitVec.ofNat 8 (((sm2ID id).length * 8) >>> 8), BitVec.ofNat 8 ((sm2ID id).length * 8)]
    ++ sm2ID id ++ SM2Curve.aBytes ++ bytesOfNat Curves.sm2.B ++ bytesOfNat Curves.sm2.Gx
      ++ bytesOfNat Curves.sm2.Gy ++ bytesOfNat pub.x ++ bytesOfNat pub.y, ?_, ?_⟩
  · intro H msg pub id hc
    have hid' : (if id.length = 0 then SM2.defaultID else id) = sm2ID id := by
      unfold sm2ID SM2.defaultID; simp [List.length_eq_zero_iff]
    unfold SM2.getZ
    rw [if_neg (by simp [hc])]
    simp only [hid', hc]
  · intro id id' pub pub' h1 h2 h3 h4 h
    beta_reduce at h
    have hlen : ∀ v, v < Curves.sm2.P → (bytesOfNat v).length ≤ 32 := fun v hv => by
      rw [bytesOfNat_length, byteLen_le_iff]
      exact hv.trans (by decide)
    have l1 := hlen _ h1
    have l2 := hlen _ h2
    have l3 := hlen _ h3
    have l4 := hlen _ h4
    generalize sm2ID id = u at *
    generalize sm2ID id' = u' at *
    generalize bytesOfNat pub.x = x at *
    generalize bytesOfNat pub.y = y at *
    generalize bytesOfNat pub'.x = x' at *
    generalize bytesOfNat pub'.y = y' at *
    generalize hcs : SM2Curve.aBytes ++ bytesOfNat Curves.sm2.B ++ bytesOfNat Curves.sm2.Gx ++
      bytesOfNat Curves.sm2.Gy = cs at *
    have h : u.length * 8 % 65536 = u'.length * 8 % 65536 ∧ u ++ (cs ++ (x ++ y)) = u' ++ (cs ++ (x' ++ y')) := by
      rw [← hcs]
      simp only [List.cons_append, List.nil_append, List.cons.injEq, List.append_assoc] at h ⊢
      obtain ⟨e1, e2, e3⟩ := h
      refine ⟨?_, e3⟩
      have e1 := congrArg BitVec.toNat e1
      have e2 := congrArg BitVec.toNat e2
      simp only [BitVec.toNat_ofNat, Nat.shiftRight_eq_div_pow] at e1 e2
      omega
    obtain ⟨e1, e2⟩ := h
    have e3 := congrArg List.length e2
    simp only [List.length_append] at e3
    obtain ⟨e4, e5⟩ := List.append_inj e2 (by omega)
    exact ⟨e4, List.append_cancel_left e5⟩

/-- **C92** (partial) Two calls of `Sign` or `Verify` with the same digest had the same message, user id and
public key, if the hash function has no collision among the strings hashed. Missing: keys with a leading
zero byte in a coordinate, whose bytes are bound up to the boundary between `x` and `y` (`C92_input`). -/
theorem C92_binding_partial : ∃ f : Bytes → ECPub → Bytes, ∀ (H : Bytes → Bytes) (k : Nat), (∀ m, (H m).length = k) →
    ∀ pub pub' id id' msg msg' mz mz', SM2.getZ H msg pub id = .ok mz → SM2.getZ H msg' pub' id' = .ok mz' →
      2 ^ 248 ≤ pub.x → pub.x < Curves.sm2.P → pub.y < Curves.sm2.P →
      2 ^ 248 ≤ pub'.x → pub'.x < Curves.sm2.P → pub'.y < Curves.sm2.P → H mz = H mz' →
      (H mz = H mz' → mz = mz') → (H (f id pub) = H (f id' pub') → f id pub = f id' pub') →
      msg = msg' ∧ sm2ID id = sm2ID id' ∧ pub = pub' := by
  obtain ⟨f, h1, h2⟩ := C92_input
  refine ⟨f, fun H k hH pub pub' id id' msg msg' mz mz' hz hz' a1 a2 a3 b1 b2 b3 h c1 c2 => ?_⟩
  have curve : ∀ {pub : ECPub} {msg id mz}, SM2.getZ H msg pub id = .ok mz → pub.curve = Curves.sm2 := by
    intro pub msg id mz hz
    by_contra hc
    unfold SM2.getZ at hz
    rw [if_pos hc] at hz
    cases hz
  have e := h1 H msg pub id (curve hz)
  have e' := h1 H msg' pub' id' (curve hz')
  rw [hz] at e
  rw [hz'] at e'
  cases e
  cases e'
  obtain ⟨e1, e2⟩ := List.append_inj (c1 h) (by rw [hH, hH])
  obtain ⟨e3, e4⟩ := h2 _ _ _ _ a2 a3 b2 b3 (c2 e1)
  refine ⟨e2, e3, ?_⟩
  have hl : ∀ v, 2 ^ 248 ≤ v → v < Curves.sm2.P → (bytesOfNat v).length = 32 := fun v hv hv' => by
    have a : byteLen v ≤ 32 := byteLen_le_iff.2 (hv'.trans (by decide))
    have b : ¬ byteLen v ≤ 31 := by rw [byteLen_le_iff]; omega
    rw [bytesOfNat_length]
    omega
  obtain ⟨e5, e6⟩ := List.append_inj e4 (by rw [hl _ a1 a2, hl _ b1 b2])
  obtain ⟨c, x, y⟩ := pub
  obtain ⟨c', x', y'⟩ := pub'
  have k1 := curve hz
  have k2 := curve hz'
  simp only at *
  rw [k1, k2, bytesOfNat_inj e5, bytesOfNat_inj e6]

/-- Two keys (not on the curve) that are not told apart: the full statement of C92 fails without the
hypotheses on `x`. -/
theorem C92_boundary (H : Bytes → Bytes) (msg id : Bytes) :
    SM2.getZ H msg ⟨Curves.sm2, 0x0102, 0x03⟩ id = SM2.getZ H msg ⟨Curves.sm2, 0x01, 0x0203⟩ id := by
  have e : bytesOfNat 0x0102 ++ bytesOfNat 0x03 = bytesOfNat 0x01 ++ bytesOfNat 0x0203 := by decide +kernel
  unfold SM2.getZ
  simp only [List.append_assoc]
  rw [e]

/-- Ids 8192 bytes apart in length have the same length bytes, and are told apart. -/
example (f : Bytes → ECPub → Bytes)
    (h2 : ∀ id id' pub pub', pub.x < Curves.sm2.P → pub.y < Curves.sm2.P → pub'.x < Curves.sm2.P →
      pub'.y < Curves.sm2.P → f id pub = f id' pub' →
      sm2ID id = sm2ID id' ∧ bytesOfNat pub.x ++ bytesOfNat pub.y = bytesOfNat pub'.x ++ bytesOfNat pub'.y)
    (x : Byte) :
    f [x] ⟨Curves.sm2, 1, 2⟩ ≠ f (x :: zeros 8192) ⟨Curves.sm2, 1, 2⟩ := by
  intro h
  have := (h2 _ _ _ _ (by decide) (by decide) (by decide) (by decide) h).1
  have := congrArg List.length this
  unfold sm2ID zeros at this
  rw [if_neg (List.cons_ne_nil _ _), if_neg (List.cons_ne_nil _ _), List.length_cons, List.length_cons,
    List.length_replicate] at this
  exact absurd this (by decide)

/-! ## C93: where the nonce comes from -/

/-- The nonce of a signature, and the string whose hash is the key of the stream. -/
theorem sign_nonce (E : SM2.Ext) (hE : E.Lawful) (H : Bytes → Bytes) (fuel : ℕ) (rand : Bytes) (priv : ECPriv)
    (id msg : Bytes) (r s : ℕ) (hs : SM2.sign E H fuel rand priv id msg = some (.ok (r, s))) :
    16 ≤ rand.length ∧ ∃ mz, SM2.getZ H msg priv.pub id = .ok mz ∧ ∃ i < fuel,
      (s + (r + s) * priv.D) % SM2.n =
        natOfBytes (E.ctr ((E.sha512 (bytesOfNat priv.D ++ rand.take 16 ++ H mz)).take 32) (40 * i) 40)
          % (SM2.n - 2) + 1 := by
  obtain ⟨mz, hz, hc, -⟩ := SM2.sign_ok hs
  unfold SM2.sign at hs
  rw [hz] at hs
  have en : SM2.entropyLen Curves.sm2 = 16 := by decide
  have rl : SM2.readLen Curves.sm2 = 40 := by decide
  simp only [hc, en] at hs
  split_ifs at hs with hlt
  · simp at hs
  rw [Option.map_eq_some_iff] at hs
  obtain ⟨a, ha, e⟩ := hs
  cases e
  rw [SM2.natOfBytes_bytesOfNat] at ha
  obtain ⟨b, hb, ht⟩ := SM2.signLoop_spec ha
  unfold SM2.nonceReads at hb
  rw [List.mem_map] at hb
  obtain ⟨i, hi, rfl⟩ := hb
  rw [rl] at ht
  refine ⟨by omega, mz, hz, i, List.mem_range.1 hi, ?_⟩
  generalize hb : E.ctr _ _ _ = b at ht
  have hk := SM2.randFieldElement_range b
  obtain ⟨-, -, -, -, -, -, h6⟩ := SM2.signTry_spec hE hk.1 (by omega) ht
  have h6' := h6
  rw [Nat.mod_eq_of_lt (a := SM2.randFieldElement Curves.sm2 b) (by omega)] at h6'
  change _ = SM2.randFieldElement Curves.sm2 b
  rw [← h6']
  have ht : (((r : ℤ) + s) % (Curves.sm2.N : ℕ)).toNat = (r + s) % Curves.sm2.N := by
    rw [show (r : ℤ) + s = ((r + s : ℕ) : ℤ) by push_cast; rfl, ← Int.natCast_mod, Int.toNat_natCast]
  rw [ht]
  conv_rhs => rw [Nat.add_mod, Nat.mod_mul_mod, ← Nat.add_mod]

/-- **C93** The nonce of every signature that `Sign` returns, which is `s + (r + s) D` modulo the order, is
made from the AES-CTR stream under a key that is the truncated SHA-512 of a string that determines the
private key, the 16 bytes read from the random source and the digest. So when a nonce stream is used for
two messages or keys, or with different random bytes, there is a collision of truncated SHA-512. -/
theorem C93_nonce : ∃ seed : ℕ → Bytes → Bytes → Bytes,
    (∀ D D' e e' d d', e.length = e'.length → d.length = d'.length → seed D e d = seed D' e' d' →
      D = D' ∧ e = e' ∧ d = d') ∧
    ∀ (E : SM2.Ext), E.Lawful → ∀ (H : Bytes → Bytes) (fuel : ℕ) (rand : Bytes) (priv : ECPriv) (id msg : Bytes)
      (r s : ℕ), SM2.sign E H fuel rand priv id msg = some (.ok (r, s)) →
      16 ≤ rand.length ∧ ∃ mz, SM2.getZ H msg priv.pub id = .ok mz ∧ ∃ i < fuel,
        (s + (r + s) * priv.D) % SM2.n =
          natOfBytes (E.ctr ((E.sha512 (seed priv.D (rand.take 16) (H mz))).take 32) (40 * i) 40) % (SM2.n - 2) + 1 := by
  refine ⟨fun D e d => bytesOfNat D ++ e ++ d, ?_, ?_⟩
  · intro D D' e e' d d' he hd h
    obtain ⟨h1, h2⟩ := List.append_inj' h hd
    obtain ⟨h3, h4⟩ := List.append_inj' h1 he
    exact ⟨bytesOfNat_inj h3, h4, h2⟩
  · exact sign_nonce

/-- A signature to which C93 applies. -/
example : refSM2.Lawful ∧ ∃ r s, SM2.sign refSM2 SM2.sm3Sum 1 (zeros 16) priv2 [] abc = some (.ok (r, s)) := by
  refine ⟨refSM2_lawful, ?_⟩
  have h : (match SM2.sign refSM2 SM2.sm3Sum 1 (zeros 16) priv2 [] abc with
    | some (.ok _) => true | _ => false) = true := by decide +kernel
  split at h
  next rs hrs => exact ⟨rs.1, rs.2, hrs⟩
  next => cases h

/-- A key to which C92 applies. -/
example : 2 ^ 248 ≤ priv2.pub.x ∧ priv2.pub.x < Curves.sm2.P ∧ priv2.pub.y < Curves.sm2.P ∧
    (SM2.getZ SM2.sm3Sum abc priv2.pub []).isOk := by
  decide +kernel

/-! ## C94: the distribution of nonces -/

theorem ncard_bytes (w : ℕ) (p : ℕ → Prop) [DecidablePred p] :
    {b : Bytes | b.length = w ∧ p (natOfBytes b)}.ncard = (256 ^ w).count p := by
  rw [Nat.count_eq_card_filter_range, ← Set.ncard_coe_finset]
  refine Set.ncard_congr (fun b _ => natOfBytes b) ?_ ?_ ?_
  · rintro b ⟨rfl, h⟩
    simpa using ⟨natOfBytes_lt b, h⟩
  · rintro a b ⟨ha, -⟩ ⟨hb, -⟩ h
    exact natOfBytes_inj (ha.trans hb.symm) h
  · intro n hn
    simp only [Finset.coe_filter, Finset.mem_range, Set.mem_ofPred_eq] at hn
    exact ⟨beFix w n, ⟨beFix_length w n, by rw [natOfBytes_beFix_of_lt hn.1]; exact hn.2⟩,
      natOfBytes_beFix_of_lt hn.1⟩

/-- **C94** Of the byte strings of the length read for a nonce, each number from 1 to `n - 2` is made from
`q` or `q + 1`, and no other number is made; `q` is at least `2^64`. So for uniform bytes the probabilities of
two nonces differ by a factor of at most `1 + 2^-64`. -/
theorem C94_nonce_count : ∃ q, 2 ^ 64 ≤ q ∧ ∀ k,
    let c := {b : Bytes | b.length = SM2.readLen Curves.sm2 ∧ SM2.randFieldElement Curves.sm2 b = k}.ncard
    (1 ≤ k ∧ k ≤ SM2.n - 2 → c = q ∨ c = q + 1) ∧ (¬ (1 ≤ k ∧ k ≤ SM2.n - 2) → c = 0) := by
  have rl : SM2.readLen Curves.sm2 = 40 := by decide
  have hn : 2 < SM2.n := by decide
  refine ⟨256 ^ 40 / (SM2.n - 2), by decide +kernel, fun k => ⟨fun hk => ?_, fun hk => ?_⟩⟩
  · have hset : {b : Bytes | b.length = SM2.readLen Curves.sm2 ∧ SM2.randFieldElement Curves.sm2 b = k} =
        {b : Bytes | b.length = 40 ∧ natOfBytes b ≡ k - 1 [MOD SM2.n - 2]} := by
      ext b
      simp only [rl, Set.mem_ofPred_eq, and_congr_right_iff, Nat.ModEq]
      intro _
      unfold SM2.randFieldElement
      rw [Nat.mod_eq_of_lt (a := k - 1) (by omega)]
      change natOfBytes b % (SM2.n - 2) + 1 = k ↔ _
      omega
    rw [hset, ncard_bytes 40 (· ≡ k - 1 [MOD SM2.n - 2]), Nat.count_modEq_card _ (by omega)]
    split_ifs
    · exact Or.inr rfl
    · exact Or.inl rfl
  · have : {b : Bytes | b.length = SM2.readLen Curves.sm2 ∧ SM2.randFieldElement Curves.sm2 b = k} = ∅ := by
      ext b
      simp only [Set.mem_ofPred_eq, Set.mem_empty_iff_false, iff_false, not_and]
      rintro - rfl
      have := SM2.randFieldElement_range b
      apply hk
      change _ ∧ _ ≤ Curves.sm2.N - 2
      omega
    rw [this, Set.ncard_empty]

/-- Strings that give the least and the greatest nonce. -/
example : (zeros 40).length = SM2.readLen Curves.sm2 ∧ SM2.randFieldElement Curves.sm2 (zeros 40) = 1 ∧
    SM2.randFieldElement Curves.sm2 (beFix 40 (SM2.n - 3)) = SM2.n - 2 := by decide +kernel

end Verif.Props
