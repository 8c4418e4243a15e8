import Verif.Model.GoCompact
import Verif.Props.GoECDSA
import Verif.Props.Compact
import Verif.Props.Malleable
/-!
# C152, C153 and C96 for the key recovery of btcec, written out

* C152: which compact signatures `Verify` accepts, with the recovery code of btcec instead of an assumption about it.
* C153: on which of them `Verify` panics.
* C96 is false for compact signatures in three ways.
-/
namespace Verif.Props
open Verif.Keypair Verif.Signature Verif.Spec Verif.Spec.ECDSA

/-! ## The square root -/

theorem pickRoot_iff (P : ℕ) [Fact P.Prime] (h4 : P % 4 = 3) (t : ℕ) (ht : t < P) (odd : Bool) (y : ℕ) :
    (let y0 := (EC.expMod t (P / 4 + 1) P).toNat
     let z := if decide (y0 % 2 = 1) = odd then y0 else (P - y0) % P
     if z * z % P ≠ t then none else if decide (z % 2 = 1) ≠ odd then none else some z) = some y ↔
    y * y % P = t ∧ y < P ∧ decide (y % 2 = 1) = odd := by
  have hpos : 0 < P := (Fact.out : P.Prime).pos
  have hr := EC.expMod_range P t (P / 4 + 1)
  have hspec := (EC.sqrt3_spec P h4 t (by omega) (by exact_mod_cast ht)).1
  have hz : ∀ z : ℕ, z * z % P = t → ((z : ℤ) * z) % P = t := fun z h => by rw [← h]; push_cast; rfl
  have root : ∀ z : ℕ, z * z % P = t →
      (EC.expMod t (P / 4 + 1) P).toNat * (EC.expMod t (P / 4 + 1) P).toNat % P = t := by
    intro z h
    have hs : IsSquare ((t : ℤ) : ZMod P) := ⟨(z : ZMod P), by
      rw [← hz z h, ZMod.intCast_mod]; push_cast; rfl⟩
    obtain ⟨r, h1, h2, -, h3⟩ := hspec hs
    unfold EC.sqrt3mod4 at h1
    simp only at h1
    split_ifs at h1
    rw [Option.some.inj h1]
    have : ((r.toNat * r.toNat % P : ℕ) : ℤ) = t := by
      push_cast; rw [Int.toNat_of_nonneg h2]; exact h3
    exact_mod_cast this
  have hlt : (EC.expMod t (P / 4 + 1) P).toNat < P := by
    have := hr.2; have := hr.1; omega
  generalize (EC.expMod t (P / 4 + 1) P).toNat = y0 at *
  simp only
  constructor
  · intro h
    split_ifs at h with h1 h2 h3 h4 h5 <;> cases Option.some.inj h
    · exact ⟨not_not.1 h2, hlt, h1⟩
    · exact ⟨not_not.1 h4, Nat.mod_lt _ hpos, not_not.1 h5⟩
  · rintro ⟨h1, h2, h3⟩
    have h0 := root y h1
    have hu := EC.root_unique P (y := y) (r := y0) h2 hlt (by rw [hz y h1, hz y0 h0])
    have e : (if decide (y0 % 2 = 1) = odd then y0 else (P - y0) % P) = y := by
      rcases hu with e | e | ⟨e, e'⟩
      · rw [if_pos (by rw [← e]; exact h3)]; exact e.symm
      · by_cases h00 : y0 = 0
        · omega
        rw [if_neg, Nat.mod_eq_of_lt (by omega)]
        · omega
        · rw [← h3]
          intro hh
          have := decide_eq_decide.1 hh
          omega
      · rw [if_pos (by rw [e', ← e]; exact h3)]; omega
    rw [e, if_neg (by rw [h1]; simp), if_neg (by rw [h3]; simp)]

theorem decompress_iff (x : ℕ) (odd : Bool) (y : ℕ) : GoCompact.decompress x odd = some y ↔
    OnCurve Signature.k1 0 x y ∧ y < Signature.k1.P ∧ decide (y % 2 = 1) = odd := by
  have hg : GoodCurve Signature.k1 0 := good_k1 ""
  have := hg.fact
  have h := pickRoot_iff Signature.k1.P k1_four ((x ^ 3 + Signature.k1.B) % Signature.k1.P)
    (Nat.mod_lt _ hg.prime.pos) odd y
  refine Iff.trans h (and_congr_left fun _ => ?_)
  rw [onCurve_zero_iff]
  generalize Signature.k1.P = P
  generalize Signature.k1.B = B
  constructor
  · intro e; exact_mod_cast congrArg (Nat.cast (R := ℤ)) e
  · intro e; exact_mod_cast e

/-! ## The arithmetic -/

theorem recover_scalar_iff {N : ℕ} (hN : N.Prime) {r s w e q k : ℕ} (hw : r * w % N = 1) :
    (r * q + e) % N = s * k % N ↔ q % N = (w * s % N * k + (-(e : ℤ) % (N : ℤ)).toNat * w % N) % N := by
  have : Fact N.Prime := ⟨hN⟩
  have h1 : ((r : ℕ) : ZMod N) * w = 1 := by
    have : ((r * w : ℕ) : ZMod N) = ((1 : ℕ) : ZMod N) := by
      rw [ZMod.natCast_eq_natCast_iff', hw, Nat.mod_eq_of_lt hN.one_lt]
    push_cast at this; exact this
  have hm : (((-(e : ℤ) % (N : ℤ)).toNat : ℕ) : ZMod N) = -(e : ZMod N) := by
    have h0 : 0 ≤ -(e : ℤ) % (N : ℤ) := Int.emod_nonneg _ (by have := hN.pos; omega)
    have : (((-(e : ℤ) % (N : ℤ)).toNat : ℕ) : ZMod N) = (((-(e : ℤ) % (N : ℤ)) : ℤ) : ZMod N) := by
      rw [← Int.cast_natCast, Int.toNat_of_nonneg h0]
    rw [this, ZMod.intCast_mod]; push_cast; rfl
  rw [← ZMod.natCast_eq_natCast_iff', ← ZMod.natCast_eq_natCast_iff']
  push_cast
  simp only [ZMod.natCast_mod]
  push_cast
  rw [hm]
  constructor
  · intro h
    calc (q : ZMod N) = r * w * q := by rw [h1, one_mul]
      _ = w * (r * q + e) - e * w := by ring
      _ = _ := by rw [h]; ring
  · intro h
    rw [h]
    calc (r : ZMod N) * (w * s * k + -e * w) + e = r * w * (s * k) - e * (r * w) + e := by ring
      _ = _ := by rw [h1]; ring

/-! ## What is recovered -/

/-- `R` is the point that the header byte and `r` name: its x-coordinate is `r`, or `r + N` for the headers 29, 30, 33 and
34, and its y-coordinate is odd for the even headers. -/
def Names (header : Byte) (r : ℕ) (R : Pt (Curves.secp256k1 "") 0) : Prop :=
  ((header ∈ [27, 28, 31, 32] ∧ (xy R).1 = r) ∨
    (header ∈ [29, 30, 33, 34] ∧ (xy R).1 = r + (Curves.secp256k1 "").N)) ∧
  ((xy R).2 % 2 = 1 ↔ header.toNat % 2 = 0)

theorem iteration_table : ∀ header : Byte,
    (header ∈ [27, 28, 31, 32] ∧ GoCompact.iteration header / 2 = 0 ∨
      header ∈ [29, 30, 33, 34] ∧ GoCompact.iteration header / 2 = 1 ∨
      ¬ header ∈ [27, 28, 31, 32] ∧ ¬ header ∈ [29, 30, 33, 34] ∧ 2 ≤ GoCompact.iteration header / 2) ∧
    (GoCompact.iteration header % 2 = 1 ↔ header.toNat % 2 = 0) := by decide +kernel

theorem lists_disjoint : ∀ header : Byte, header ∈ [27, 28, 31, 32] → ¬ header ∈ [29, 30, 33, 34] := by decide +kernel

theorem k1_two_N : Signature.k1.P ≤ 2 * Signature.k1.N := by decide +kernel
theorem k1_N_P : Signature.k1.N < Signature.k1.P := by decide +kernel

/-- The candidate point that `recoverKeyFromSignature` computes, in terms of `Names`. -/
theorem candidate_iff [Fact Signature.k1.P.Prime] (header : Byte) (r : ℕ) (R : Pt Signature.k1 0) (hR : R ≠ 0) :
    Names header r R ↔
      Signature.k1.N * (GoCompact.iteration header / 2) + r = (xy R).1 ∧
      decide ((xy R).2 % 2 = 1) = decide (GoCompact.iteration header % 2 = 1) := by
  obtain ⟨h1, h2⟩ := iteration_table header
  have hd := lists_disjoint header
  have hx := (Affine.xy_onCurve R hR).2.1
  have h3 := k1_two_N
  unfold Names
  rw [decide_eq_decide, h2]
  refine and_congr_left fun _ => ?_
  change _ ∨ (_ ∧ (xy R).1 = r + Signature.k1.N) ↔ _
  generalize Signature.k1.N = N at *
  generalize Signature.k1.P = P at hx h3
  rcases h1 with ⟨a, b⟩ | ⟨a, b⟩ | ⟨a, a', b⟩
  · simp only [a, hd a, b, true_and, false_and, or_false]; omega
  · have : ¬ header ∈ ([27, 28, 31, 32] : List Byte) := fun e => hd e a
    simp only [a, this, b, true_and, false_and, false_or]; omega
  · simp only [a, a', false_and, false_or]
    have : N * 2 ≤ N * (GoCompact.iteration header / 2) := Nat.mul_le_mul_left _ b
    simp only [false_iff]
    omega

/-- `RecoverCompact` returns the key for which the signature is valid, and an error or a panic if there is none. -/
theorem recoverCompact_iff (ops : CurveOps) (hops : ops.Lawful (Curves.secp256k1 "") 0) (sig digest : Bytes) (x y : ℕ)
    [Fact (Curves.secp256k1 "").P.Prime] (G : Pt (Curves.secp256k1 "") 0)
    (hG : xy G = ((Curves.secp256k1 "").Gx, (Curves.secp256k1 "").Gy)) :
    GoCompact.recoverCompact ops sig digest = .ok (x, y) ↔
      sig.length = 65 ∧ rOf (sig.drop 1) % (Curves.secp256k1 "").N ≠ 0 ∧
      ∃ R Q : Pt (Curves.secp256k1 "") 0, R ≠ 0 ∧ Names (sig.getD 0 0) (rOf (sig.drop 1)) R ∧ xy Q = (x, y) ∧
        rOf (sig.drop 1) • Q + bits2int (Curves.secp256k1 "").N digest • G = sOf (sig.drop 1) • R := by
  have hg : GoodCurve Signature.k1 0 := good_k1 ""
  have hss : natOfBytes ((sig.drop 33).take 32) = sOf (sig.drop 1) := by
    unfold sOf; rw [List.drop_drop]
  have hrr : natOfBytes ((sig.drop 1).take 32) = rOf (sig.drop 1) := rfl
  unfold GoCompact.recoverCompact
  rw [hss, hrr]
  generalize rOf (sig.drop 1) = r
  generalize sOf (sig.drop 1) = s
  generalize sig.getD 0 0 = header
  by_cases hl : sig.length = 65
  swap
  · rw [if_pos hl]; constructor
    · intro h; cases h
    · intro h; exact absurd h.1 hl
  rw [if_neg (not_not.2 hl)]
  unfold GoCompact.recoverKey
  rw [C141_hash]
  change (if Signature.k1.N * (GoCompact.iteration header / 2) + r ≥ Signature.k1.P then _ else _) = _ ↔ _
  have hcand := fun R hR => candidate_iff header r R hR
  have hiter : (decide (GoCompact.iteration header % 2 = 1)) = decide (GoCompact.iteration header % 2 = 1) := rfl
  generalize GoCompact.iteration header / 2 = i at *
  generalize decide (GoCompact.iteration header % 2 = 1) = odd at *
  by_cases hlt : Signature.k1.N * i + r ≥ Signature.k1.P
  · rw [if_pos hlt]
    constructor
    · intro h; cases h
    · rintro ⟨-, -, R, Q, hR, hn, -⟩
      have := (Affine.xy_onCurve R hR).2.1
      rw [← ((hcand R hR).1 hn).1] at this
      exact absurd this (not_lt.2 hlt)
  rw [if_neg hlt]
  cases hd : GoCompact.decompress (Signature.k1.N * i + r) odd with
  | none =>
    simp only
    constructor
    · intro h; cases h
    · rintro ⟨-, -, R, Q, hR, hn, -⟩
      obtain ⟨h1, h2, h3⟩ := Affine.xy_onCurve R hR
      obtain ⟨h4, h5⟩ := (hcand R hR).1 hn
      have := (decompress_iff (Signature.k1.N * i + r) odd (xy R).2).2 ⟨by rw [h4]; exact h1, h3, h5⟩
      rw [hd] at this; cases this
  | some ry =>
    obtain ⟨hon, hry, hodd⟩ := (decompress_iff _ _ _).1 hd
    have hxy := Affine.xy_ofXY hg.ok hon (by omega) hry
    set R := Affine.ofXY hg.ok hon with hRdef
    have hR : R ≠ 0 := Affine.ofXY_ne_zero hg.ok hon
    simp only
    change (if r % Signature.k1.N = 0 then _ else _) = _ ↔ _
    by_cases h0 : r % Signature.k1.N = 0
    · rw [if_pos h0]
      constructor
      · intro h; cases h
      · intro h; exact absurd h0 h.2.1
    rw [if_neg h0]
    have hw := modInverse_spec hg.order_prime r h0
    change Res.ok (ops.add (ops.mult (Signature.k1.N * i + r, ry) (GoECDSA.modInverse r Signature.k1.N * s % Signature.k1.N))
      (ops.baseMult ((-(bits2int Signature.k1.N digest : ℤ) % (Signature.k1.N : ℤ)).toNat *
        GoECDSA.modInverse r Signature.k1.N % Signature.k1.N))) = _ ↔ _
    rw [← hxy, hops.mult, hops.base G hG, hops.add]
    obtain ⟨k, -, hk⟩ := hg.exists_smul (hg.G_ne_zero hG) R
    have hn : Names header r R := (hcand R hR).2 ⟨by rw [hxy], by rw [hxy]; exact hodd⟩
    change Res.ok (xy ((GoECDSA.modInverse r Signature.k1.N * s % Signature.k1.N) • R +
      ((-(bits2int Signature.k1.N digest : ℤ) % (Signature.k1.N : ℤ)).toNat *
        GoECDSA.modInverse r Signature.k1.N % Signature.k1.N) • G)) = _ ↔ _ ∧ r % Signature.k1.N ≠ 0 ∧
        ∃ R Q : Pt Signature.k1 0, R ≠ 0 ∧ Names header r R ∧ xy Q = (x, y) ∧
          r • Q + bits2int Signature.k1.N digest • G = s • R
    generalize bits2int Signature.k1.N digest = e
    generalize GoECDSA.modInverse r Signature.k1.N = w at *
    have key : ∀ Q : Pt Signature.k1 0, r • Q + e • G = s • R ↔
        Q = (w * s % Signature.k1.N) • R + ((-(e : ℤ) % (Signature.k1.N : ℤ)).toNat * w % Signature.k1.N) • G := by
      intro Q
      obtain ⟨q, -, hq⟩ := hg.exists_smul (hg.G_ne_zero hG) Q
      rw [← hq, ← hk]
      simp only [smul_smul, ← add_smul]
      rw [hg.smul_eq_iff (hg.G_ne_zero hG), hg.smul_eq_iff (hg.G_ne_zero hG)]
      exact recover_scalar_iff hg.order_prime hw
    constructor
    · intro h
      exact ⟨hl, h0, R, _, hR, hn, Res.ok.inj h, (key _).2 rfl⟩
    · rintro ⟨-, -, R', Q, hR', hn', hQ, he⟩
      have : R' = R := by
        refine Affine.xy_inj hg.ok (Prod.ext ?_ ?_)
        · rw [hxy]; exact ((hcand R' hR').1 hn').1.symm
        · obtain ⟨h1, h2, h3⟩ := Affine.xy_onCurve R' hR'
          obtain ⟨h4, h5⟩ := (hcand R' hR').1 hn'
          have := (decompress_iff (Signature.k1.N * i + r) odd (xy R').2).2 ⟨by rw [h4]; exact h1, h3, h5⟩
          rw [hd] at this
          rw [hxy]; exact (Option.some.inj this).symm
      rw [this] at he
      rw [← hQ, (key Q).1 he]

/-! ## C152 -/

theorem ecdsa_of_name {scheme : Scheme} {a : HashAlg} (h : name scheme = .ok (a.published ++ "withECDSA")) :
    isECDSA scheme = true := by
  have : ∀ scheme : Scheme, ∀ a ∈ [HashAlg.sha224, .sha256, .sha384, .sha512, .sha3_224, .sha3_256,
      .sha3_384, .sha3_512, .ripemd160, .sm3, .keccak256],
      name scheme = .ok (a.published ++ "withECDSA") → isECDSA scheme = true := by
    decide +kernel
  exact this scheme a (by cases a <;> decide) h

/-- **C152** Exactly which compact signatures `Verify` accepts: 65 bytes, a message that is not empty, an `r` that is no
multiple of the order, and `r Q + e G = s R` for the point `Q` of the given key and the point `R` that `r` and the header
name. -/
theorem C152_accepts_iff (E : Signature.Ext) (ops : CurveOps) (hops : ops.Lawful (Curves.secp256k1 "") 0)
    (hE : E.recoverCompact = GoCompact.recoverCompact ops) (scheme : Scheme) (a : HashAlg)
    (hname : name scheme = .ok (a.published ++ "withECDSA")) (alg : Alg) (pub : ECPub) (msg : Bytes) (sig : Buf)
    [Fact (Curves.secp256k1 "").P.Prime] (G : Pt (Curves.secp256k1 "") 0)
    (hG : xy G = ((Curves.secp256k1 "").Gx, (Curves.secp256k1 "").Gy)) :
    verify E (.ec alg pub) msg (some ⟨scheme, .bytes sig⟩) = .ok true ↔
      msg ≠ [] ∧ sig.data.length = 65 ∧ rOf (sig.data.drop 1) % (Curves.secp256k1 "").N ≠ 0 ∧
      ∃ R Q : Pt (Curves.secp256k1 "") 0, R ≠ 0 ∧ Names (sig.data.getD 0 0) (rOf (sig.data.drop 1)) R ∧
        xy Q = (pub.x, pub.y) ∧
        rOf (sig.data.drop 1) • Q + bits2int (Curves.secp256k1 "").N (E.hash a msg) • G = sOf (sig.data.drop 1) • R := by
  have ha := hashOf_of_name hname
  rw [← recoverCompact_iff ops hops sig.data (E.hash a msg) pub.x pub.y G hG, ← hE]
  constructor
  · intro h; exact ⟨verify_message h, compact_accepted ha h⟩
  · rintro ⟨hm, h⟩; exact compact_accepts ha (ecdsa_of_name hname) hm h

/-! ## C153 -/

theorem recoverKey_panics (ops : CurveOps) (r s : ℕ) (digest : Bytes) (it : ℕ) :
    (∃ m, GoCompact.recoverKey ops r s digest it = .panic m) ↔
      GoCompact.k1.N * (it / 2) + r < GoCompact.k1.P ∧
      (GoCompact.decompress (GoCompact.k1.N * (it / 2) + r) (decide (it % 2 = 1))).isSome = true ∧
      r % GoCompact.k1.N = 0 := by
  unfold GoCompact.recoverKey
  simp only
  by_cases hlt : GoCompact.k1.N * (it / 2) + r ≥ GoCompact.k1.P
  · rw [if_pos hlt]
    exact ⟨fun ⟨_, h⟩ => (nomatch h), fun h => absurd h.1 (not_lt.2 hlt)⟩
  rw [if_neg hlt]
  cases GoCompact.decompress (GoCompact.k1.N * (it / 2) + r) (decide (it % 2 = 1)) with
  | none => exact ⟨fun ⟨_, h⟩ => (nomatch h), fun h => (nomatch h.2.1)⟩
  | some ry =>
    simp only
    by_cases h0 : r % GoCompact.k1.N = 0
    · rw [if_pos h0]; exact ⟨fun _ => ⟨not_le.1 hlt, rfl, h0⟩, fun _ => ⟨_, rfl⟩⟩
    · rw [if_neg h0]; exact ⟨fun ⟨_, h⟩ => (nomatch h), fun h => absurd h.2.2 h0⟩

theorem recoverCompact_panics (ops : CurveOps) (sig digest : Bytes) :
    (∃ m, GoCompact.recoverCompact ops sig digest = .panic m) ↔ sig.length = 65 ∧
      ((sig.getD 0 0 ∈ [27, 28, 31, 32] ∧ rOf (sig.drop 1) = (Curves.secp256k1 "").N) ∨
       (sig.getD 0 0 ∈ [29, 30, 33, 34] ∧ rOf (sig.drop 1) = 0)) := by
  have hrr : natOfBytes ((sig.drop 1).take 32) = rOf (sig.drop 1) := rfl
  unfold GoCompact.recoverCompact
  rw [hrr]
  generalize rOf (sig.drop 1) = r
  generalize natOfBytes ((sig.drop 33).take 32) = s
  generalize sig.getD 0 0 = header
  by_cases hl : sig.length = 65
  swap
  · rw [if_pos hl]; constructor
    · rintro ⟨m, h⟩; cases h
    · intro h; exact absurd h.1 hl
  rw [if_neg (not_not.2 hl)]
  have hN : ∀ odd, (GoCompact.decompress Signature.k1.N odd).isSome = true := by decide +kernel
  have h0 : ∀ odd, GoCompact.decompress 0 odd = none := by decide +kernel
  have h2 := k1_two_N
  have h1 := k1_N_P
  obtain ⟨ht, -⟩ := iteration_table header
  have hd := lists_disjoint header
  refine Iff.trans (recoverKey_panics ops r s digest (GoCompact.iteration header)) ?_
  change Signature.k1.N * (GoCompact.iteration header / 2) + r < Signature.k1.P ∧
    (GoCompact.decompress (Signature.k1.N * (GoCompact.iteration header / 2) + r) (decide (GoCompact.iteration header % 2 = 1))).isSome = true ∧
    r % Signature.k1.N = 0 ↔ _ ∧ ((_ ∧ r = Signature.k1.N) ∨ _)
  generalize GoCompact.iteration header / 2 = i at *
  generalize decide (GoCompact.iteration header % 2 = 1) = odd at *
  have hpos : 0 < Signature.k1.N := by decide +kernel
  generalize Signature.k1.N = N at *
  generalize Signature.k1.P = P at *
  constructor
  · rintro ⟨hlt, hs, hm⟩
    refine ⟨hl, ?_⟩
    obtain ⟨q, rfl⟩ := Nat.dvd_of_mod_eq_zero hm
    rcases ht with ⟨a, rfl⟩ | ⟨a, rfl⟩ | ⟨a, a', b⟩
    · left
      refine ⟨a, ?_⟩
      rcases q with _ | _ | q
      · simp [h0] at hs
      · simp
      · exfalso; have : N * 2 ≤ N * (q + 1 + 1) := Nat.mul_le_mul_left _ (by omega)
        omega
    · right
      refine ⟨a, ?_⟩
      rcases q with _ | q
      · rfl
      · exfalso; have : N * 1 ≤ N * (q + 1) := Nat.mul_le_mul_left _ (by omega)
        omega
    · exfalso; have : N * 2 ≤ N * i := Nat.mul_le_mul_left _ b
      omega
  · rintro ⟨-, ⟨a, rfl⟩ | ⟨a, rfl⟩⟩
    · rcases ht with ⟨-, rfl⟩ | ⟨a', -⟩ | ⟨a', -⟩
      · exact ⟨by omega, by rw [Nat.mul_zero, Nat.zero_add]; exact hN odd, Nat.mod_self _⟩
      · exact absurd a' (hd a)
      · exact absurd a a'
    · rcases ht with ⟨a', -⟩ | ⟨-, rfl⟩ | ⟨-, a', -⟩
      · exact absurd a (hd a')
      · exact ⟨by omega, by rw [Nat.mul_one, Nat.add_zero]; exact hN odd, Nat.zero_mod _⟩
      · exact absurd a a'

/-- **C153** Exactly on which compact signatures `Verify` panics, whatever the key, the curve of the key and the message
(if it is not empty): `r` is the order, or zero with a header that adds the order. -/
theorem C153_panics_iff (E : Signature.Ext) (ops : CurveOps)
    (hE : E.recoverCompact = GoCompact.recoverCompact ops) (scheme : Scheme) (a : HashAlg)
    (hname : name scheme = .ok (a.published ++ "withECDSA")) (alg : Alg) (pub : ECPub) (msg : Bytes) (sig : Buf) :
    (∃ m, verify E (.ec alg pub) msg (some ⟨scheme, .bytes sig⟩) = .panic m) ↔
      msg ≠ [] ∧ sig.data.length = 65 ∧
      ((sig.data.getD 0 0 ∈ [27, 28, 31, 32] ∧ rOf (sig.data.drop 1) = (Curves.secp256k1 "").N) ∨
       (sig.data.getD 0 0 ∈ [29, 30, 33, 34] ∧ rOf (sig.data.drop 1) = 0)) := by
  rw [← recoverCompact_panics ops sig.data (E.hash a msg), ← hE]
  have ha := hashOf_of_name hname
  have hs := ecdsa_of_name hname
  unfold verify
  by_cases hm : msg.length = 0
  · have : msg = [] := List.eq_nil_of_length_eq_zero hm
    simp [this]
  have hm' : msg ≠ [] := fun e => hm (by rw [e]; rfl)
  simp only [if_neg hm, ha, hs, if_true, secp256k1Verify]
  generalize E.recoverCompact sig.data (E.hash a msg) = r
  cases r with
  | ok p => exact ⟨fun ⟨_, h⟩ => (nomatch h), fun ⟨_, _, h⟩ => (nomatch h)⟩
  | err m => exact ⟨fun ⟨_, h⟩ => (nomatch h), fun ⟨_, _, h⟩ => (nomatch h)⟩
  | panic m => exact ⟨fun _ => ⟨hm', m, rfl⟩, fun _ => ⟨m, rfl⟩⟩

/-- **C153** is false: for every scheme named XwithECDSA there are 66 bytes from which `Deserialize` makes a signature that
`Verify` panics on, under every key of that kind and for every message that is not empty. -/
theorem C153_deserialized_fails (E : Signature.Ext) (ops : CurveOps)
    (hE : E.recoverCompact = GoCompact.recoverCompact ops) (scheme : Scheme) (a : HashAlg)
    (hname : name scheme = .ok (a.published ++ "withECDSA")) (s : Bytes) (hs : s.length = 32) (h : Heap) (buf : Slice)
    (hv : buf.Valid h) (hb : buf.read h = scheme :: 27 :: (beFix 32 (Curves.secp256k1 "").N ++ s)) :
    ∃ h' s', deserialize h buf = .ok (h', s') ∧
      ∀ alg pub msg, msg ≠ [] → ∃ m, verify E (.ec alg pub) msg (some (s'.map (bufOf h'))) = .panic m := by
  have hsch := (isECDSA_iff scheme).1 (ecdsa_of_name hname)
  have hl65 : (27 :: (beFix 32 (Curves.secp256k1 "").N ++ s) : Bytes).length = 65 := by simp [hs]
  have hf : Format ⟨scheme, .bytes (27 :: (beFix 32 (Curves.secp256k1 "").N ++ s))⟩ (buf.read h) := by
    rw [hb]; exact Format.compact scheme hsch _ hl65
  obtain ⟨h', s', hd, he⟩ := ((C32_deserialize_format h buf hv).1 _).1 hf
  refine ⟨h', s', hd, fun alg pub msg hm => ?_⟩
  have hlen := read_length hv
  rw [hb, List.length_cons, hl65] at hlen
  have hsc : s'.scheme = scheme := congrArg Sig.scheme he
  refine (C35_panics_iff E (.ec alg pub) msg h buf hv _ _ hd).2 ⟨hm, Or.inr (Or.inr ?_)⟩
  have hr : rOf (beFix 32 (Curves.secp256k1 "").N ++ s) = (Curves.secp256k1 "").N := by
    unfold rOf
    rw [List.take_left' (beFix_length _ _)]
    exact natOfBytes_beFix_of_lt (show Signature.k1.N < 256 ^ 32 by decide +kernel)
  obtain ⟨m, hp⟩ := (recoverCompact_panics ops (27 :: (beFix 32 (Curves.secp256k1 "").N ++ s)) (E.hash a msg)).2
    ⟨hl65, Or.inl ⟨by simp, by rw [List.drop_succ_cons, List.drop_zero]; exact hr⟩⟩
  refine ⟨alg, pub, a, m, rfl, by rw [hsc]; exact hashOf_of_name hname, by rw [hsc]; exact hsch, hlen.symm, ?_⟩
  rw [hb, List.drop_succ_cons, List.drop_zero, hE]
  exact hp

/-- **C153** (partial) `Verify` under an EC key returns a boolean on every signature that `Deserialize` returns, when the
66 bytes of a compact signature do not carry one of those two values of `r`. -/
theorem C153_no_panic_partial (E : Signature.Ext) (ops : CurveOps)
    (hE : E.recoverCompact = GoCompact.recoverCompact ops) (alg : Alg) (pub : ECPub) (msg : Bytes) (h : Heap) (buf : Slice)
    (hv : buf.Valid h) (h' : Heap) (s' : Sig Slice) (hd : deserialize h buf = .ok (h', s'))
    (hr : buf.len = 66 → rOf ((buf.read h).drop 2) ≠ 0 ∧ rOf ((buf.read h).drop 2) ≠ (Curves.secp256k1 "").N) :
    ¬ ∃ m, verify E (.ec alg pub) msg (some (s'.map (bufOf h'))) = .panic m := by
  rw [C35_panics_iff E (.ec alg pub) msg h buf hv _ _ hd]
  rintro ⟨-, ⟨k, e, -⟩ | ⟨k, e, -⟩ | ⟨_, _, a, m, -, -, -, hl, hp⟩⟩
  · cases e
  · cases e
  rw [hE] at hp
  obtain ⟨-, hc⟩ := (recoverCompact_panics ops _ _).1 ⟨m, hp⟩
  rw [List.drop_drop] at hc
  rcases hc with ⟨-, e⟩ | ⟨-, e⟩
  · exact (hr hl).2 e
  · exact (hr hl).1 e

/-! ## C96 for compact signatures -/

theorem iteration_four : ∀ header ∈ ([27, 28, 29, 30] : List Byte),
    GoCompact.iteration (header + 4) = GoCompact.iteration header := by decide +kernel

/-- **C96** is false for compact signatures: the flag for compressed keys in the header can be changed. `Verify` answers both
alike, under every key and for every message. -/
theorem C96_compact_flag (E : Signature.Ext) (ops : CurveOps) (hE : E.recoverCompact = GoCompact.recoverCompact ops)
    (header : Byte) (hh : header ∈ ([27, 28, 29, 30] : List Byte)) (rs sp : Bytes) (scheme : Scheme) (alg : Alg) (pub : ECPub)
    (msg : Bytes) :
    verify E (.ec alg pub) msg (some ⟨scheme, .bytes ⟨(header + 4) :: rs, sp⟩⟩) =
      verify E (.ec alg pub) msg (some ⟨scheme, .bytes ⟨header :: rs, sp⟩⟩) := by
  have h : ∀ d, E.recoverCompact ((header + 4) :: rs) d = E.recoverCompact (header :: rs) d := by
    intro d
    rw [hE]
    unfold GoCompact.recoverCompact
    simp only [List.length_cons, List.getD_cons_zero, List.drop_succ_cons, iteration_four header hh]
  unfold verify secp256k1Verify
  simp only [h]

theorem names_neg {header header' : Byte} (hp : (header, header') ∈ ([(27, 28), (28, 27), (29, 30), (30, 29), (31, 32),
      (32, 31), (33, 34), (34, 33)] : List (Byte × Byte))) {r : ℕ} [Fact (Curves.secp256k1 "").P.Prime]
    {R : Pt (Curves.secp256k1 "") 0} (hR : R ≠ 0) (h : Names header r R) : Names header' r (-R) := by
  have tab : ∀ q ∈ ([(27, 28), (28, 27), (29, 30), (30, 29), (31, 32),
      (32, 31), (33, 34), (34, 33)] : List (Byte × Byte)),
      (q.1 ∈ ([27, 28, 31, 32] : List Byte) ↔ q.2 ∈ ([27, 28, 31, 32] : List Byte)) ∧
      (q.1 ∈ ([29, 30, 33, 34] : List Byte) ↔ q.2 ∈ ([29, 30, 33, 34] : List Byte)) ∧
      (q.1.toNat % 2 = 0 ↔ ¬ q.2.toNat % 2 = 0) := by decide +kernel
  obtain ⟨t1, t2, t3⟩ := tab _ hp
  simp only at t1 t2 t3
  have hg : GoodCurve Signature.k1 0 := good_k1 ""
  have hy0 : (xy R).2 % 2 = 1 ↔ ¬ (xy (-R)).2 % 2 = 1 := by
    have hR' : -R ≠ 0 := neg_ne_zero.2 hR
    obtain ⟨a1, -, a3⟩ := Affine.xy_onCurve R hR
    obtain ⟨b1, -, b3⟩ := Affine.xy_onCurve (-R) hR'
    have hx := xy_neg_fst R
    rw [hx] at b1
    have hne : (xy (-R)).2 ≠ (xy R).2 := by
      intro e
      have e' : -R = R := Affine.xy_inj hg.ok (Prod.ext hx e)
      have h2 : 2 • R = 0 := by rw [two_nsmul]; nth_rewrite 1 [← e']; exact neg_add_cancel R
      have := (hg.smul_eq_zero_iff hR 2).1 h2
      revert this
      decide +kernel
    have hodd : Signature.k1.P % 2 = 1 := by decide +kernel
    rw [onCurve_zero_iff] at a1 b1
    have := EC.root_unique Signature.k1.P (y := (xy (-R)).2) (r := (xy R).2) b3 a3 (b1.trans a1.symm)
    clear a1 b1 tab hp h t1 t2 t3
    generalize hyy : (xy R).2 = u at *
    generalize hyy' : (xy (-R)).2 = u' at *
    generalize Signature.k1.P = P at hodd this
    omega
  obtain ⟨h1, h2⟩ := h
  unfold Names
  rw [xy_neg_fst, ← t1, ← t2]
  refine ⟨h1, ?_⟩
  generalize (xy R).2 = y at *
  generalize (xy (-R)).2 = y' at *
  omega

/-- **C96** is false for compact signatures: with `s` also `N - s` is accepted, with the header that names the opposite
point. -/
theorem C96_compact_negated (E : Signature.Ext) (ops : CurveOps) (hops : ops.Lawful (Curves.secp256k1 "") 0)
    (hE : E.recoverCompact = GoCompact.recoverCompact ops) (scheme : Scheme) (a : HashAlg)
    (hname : name scheme = .ok (a.published ++ "withECDSA")) (alg : Alg) (pub : ECPub) (msg : Bytes) (r s : ℕ)
    (hr : r < 256 ^ 32) (hs : s ≤ (Curves.secp256k1 "").N) (header header' : Byte)
    (hp : (header, header') ∈ ([(27, 28), (28, 27), (29, 30), (30, 29), (31, 32), (32, 31), (33, 34), (34, 33)] :
      List (Byte × Byte))) (sp : Bytes)
    (h : verify E (.ec alg pub) msg (some ⟨scheme, .bytes ⟨header :: (beFix 32 r ++ beFix 32 s), sp⟩⟩) = .ok true) :
    verify E (.ec alg pub) msg
      (some ⟨scheme, .bytes ⟨header' :: (beFix 32 r ++ beFix 32 ((Curves.secp256k1 "").N - s)), sp⟩⟩) = .ok true := by
  have hg : GoodCurve (Curves.secp256k1 "") 0 := good_k1 ""
  have := hg.fact
  obtain ⟨G, hG⟩ := hg.exists_G
  have hN : (Curves.secp256k1 "").N < 256 ^ 32 := by
    change Signature.k1.N < 256 ^ 32
    decide +kernel
  have er : ∀ t, rOf (beFix 32 r ++ beFix 32 t) = r := fun t => by
    unfold rOf; rw [List.take_left' (beFix_length _ _)]; exact natOfBytes_beFix_of_lt hr
  have es : ∀ t, t < 256 ^ 32 → sOf (beFix 32 r ++ beFix 32 t) = t := fun t ht => by
    unfold sOf
    rw [List.drop_left' (beFix_length _ _), List.take_of_length_le (by rw [beFix_length])]
    exact natOfBytes_beFix_of_lt ht
  rw [C152_accepts_iff E ops hops hE scheme a hname alg pub msg _ G hG] at h ⊢
  simp only [List.getD_cons_zero, List.drop_succ_cons, List.drop_zero, er] at h ⊢
  rw [es s (by omega)] at h
  rw [es _ (by omega)]
  obtain ⟨hm, hl, h0, R, Q, hR, hn, hQ, he⟩ := h
  refine ⟨hm, by simp, h0, -R, Q, neg_ne_zero.2 hR, names_neg hp hR hn, hQ, ?_⟩
  rw [he, smul_neg, eq_neg_iff_add_eq_zero, ← add_smul,
    show s + ((Curves.secp256k1 "").N - s) = (Curves.secp256k1 "").N by omega]
  exact Verif.Affine.order_kills hg.card R

/-! ## The recovery code meets what is assumed of it -/

/-- `E` with the recovery code of btcec. -/
def withBtcec (E : Signature.Ext) (ops : CurveOps) : Signature.Ext :=
  { E with recoverCompact := GoCompact.recoverCompact ops }

/-- **C152** The two laws that the other properties use of key recovery hold of the code of btcec: what it recovers
satisfies the equation, and the point `R` is found without the digest. -/
theorem C152_sound (ops : CurveOps) (hops : ops.Lawful (Curves.secp256k1 "") 0) (sig : Bytes)
    [Fact (Curves.secp256k1 "").P.Prime] (G : Pt (Curves.secp256k1 "") 0)
    (hG : xy G = ((Curves.secp256k1 "").Gx, (Curves.secp256k1 "").Gy)) :
    ∃ R : Pt (Curves.secp256k1 "") 0, ∀ digest x y, GoCompact.recoverCompact ops sig digest = .ok (x, y) →
      sig.length = 65 ∧ (xy R).1 % (Curves.secp256k1 "").N = rOf (sig.drop 1) % (Curves.secp256k1 "").N ∧
      ∃ Q : Pt (Curves.secp256k1 "") 0, xy Q = (x, y) ∧
        rOf (sig.drop 1) • Q + bits2int (Curves.secp256k1 "").N digest • G = sOf (sig.drop 1) • R := by
  have hg : GoodCurve (Curves.secp256k1 "") 0 := good_k1 ""
  by_cases hex : ∃ R : Pt (Curves.secp256k1 "") 0, R ≠ 0 ∧ Names (sig.getD 0 0) (rOf (sig.drop 1)) R
  · obtain ⟨R, hR, hn⟩ := hex
    refine ⟨R, fun digest x y h => ?_⟩
    obtain ⟨hl, -, R', Q, hR', hn', hQ, he⟩ := (recoverCompact_iff ops hops sig digest x y G hG).1 h
    have : R' = R := by
      obtain ⟨a1, a2⟩ := (candidate_iff _ _ R hR).1 hn
      obtain ⟨b1, b2⟩ := (candidate_iff _ _ R' hR').1 hn'
      have hx : (xy R').1 = (xy R).1 := b1.symm.trans a1
      refine Affine.xy_inj hg.ok (Prod.ext hx ?_)
      have c1 := (decompress_iff (xy R).1 _ (xy R).2).2
        ⟨(Affine.xy_onCurve R hR).1, (Affine.xy_onCurve R hR).2.2, a2⟩
      have c2 := (decompress_iff (xy R').1 _ (xy R').2).2
        ⟨(Affine.xy_onCurve R' hR').1, (Affine.xy_onCurve R' hR').2.2, b2⟩
      rw [hx, c1] at c2
      exact (Option.some.inj c2).symm
    subst this
    refine ⟨hl, ?_, Q, hQ, he⟩
    rcases hn.1 with ⟨-, e⟩ | ⟨-, e⟩
    · rw [e]
    · rw [e, Nat.add_mod_right]
  · refine ⟨0, fun digest x y h => ?_⟩
    obtain ⟨-, -, R, Q, hR, hn, -⟩ := (recoverCompact_iff ops hops sig digest x y G hG).1 h
    exact absurd ⟨R, hR, hn⟩ hex

theorem headers_low : ∀ header : Byte, (header - 27).toNat / 2 < 2 →
    (header ∈ [27, 28, 31, 32] ∧ (header - 27).toNat / 2 = 0 ∨ header ∈ [29, 30, 33, 34] ∧ (header - 27).toNat / 2 = 1) ∧
    ((header - 27).toNat % 2 = 1 ↔ header.toNat % 2 = 0) := by decide +kernel

theorem liftX_parity {x par y : ℕ} (hp : par < 2) (h : liftX Signature.k1 x par = some y) (hy : y < Signature.k1.P) :
    y % 2 = par := by
  have hodd : Signature.k1.P % 2 = 1 := by decide +kernel
  have hpos : 0 < Signature.k1.P := by decide +kernel
  have := (good_k1 "").fact
  unfold liftX at h
  obtain ⟨z, hz, e⟩ := Option.map_eq_some_iff.1 h
  have hr : 0 ≤ z ∧ z < Signature.k1.P := by
    unfold EC.sqrt3mod4 at hz
    simp only at hz
    split_ifs at hz
    rw [← Option.some.inj hz]
    exact EC.expMod_range Signature.k1.P _ _
  clear hz h this
  generalize Signature.k1.P = P at *
  split_ifs at e <;> omega

/-- What the reference recovery returns, the code of btcec returns. -/
theorem refRecover_btcec (ops : CurveOps) (hops : ops.Lawful (Curves.secp256k1 "") 0) (sig digest : Bytes) (x y : ℕ)
    (h : refRecover sig digest = .ok (x, y)) : GoCompact.recoverCompact ops sig digest = .ok (x, y) := by
  have hg : GoodCurve Signature.k1 0 := good_k1 ""
  have := hg.fact
  obtain ⟨G, hG⟩ := hg.exists_G
  rw [recoverCompact_iff ops hops sig digest x y G hG]
  change sig.length = 65 ∧ rOf (sig.drop 1) % Signature.k1.N ≠ 0 ∧ ∃ R Q : Pt Signature.k1 0, R ≠ 0 ∧
    Names (sig.getD 0 0) (rOf (sig.drop 1)) R ∧ xy Q = (x, y) ∧
    rOf (sig.drop 1) • Q + bits2int Signature.k1.N digest • G = sOf (sig.drop 1) • R
  unfold refRecover at h
  simp only at h
  by_cases h1 : sig.length = 65
  swap
  · rw [if_pos h1] at h; cases h
  rw [if_neg (not_not.2 h1)] at h
  generalize rOf (sig.drop 1) = r at *
  generalize sOf (sig.drop 1) = s at *
  generalize sig.getD 0 0 = header at *
  by_cases h2 : r % Signature.k1.N = 0 ∨ r + (header - 27).toNat / 2 * Signature.k1.N ≥ Signature.k1.P
  · rw [if_pos h2] at h; cases h
  rw [if_neg h2] at h
  rw [not_or] at h2
  cases hl : liftX Signature.k1 (r + (header - 27).toNat / 2 * Signature.k1.N) ((header - 27).toNat % 2) with
  | none => rw [hl] at h; cases h
  | some y' =>
    rw [hl] at h
    simp only at h
    by_cases h3 : y' ≥ Signature.k1.P
    · rw [if_pos h3] at h; cases h
    rw [if_neg h3] at h
    have hon := liftX_sound k1_four hl
    have hpar := liftX_parity (Nat.mod_lt _ (by omega)) hl (not_le.1 h3)
    have hxy := Affine.xy_ofXY hg.ok hon (not_le.1 h2.2) (not_le.1 h3)
    have hR0 := Affine.ofXY_ne_zero hg.ok hon
    generalize Affine.ofXY hg.ok hon = R at *
    have hw1 := (SM2.fermatInverse_spec hg.order_prime k1_two r).1 h2.1
    rw [← hxy, ← hG, Affine.smul_eq hg.ok 0 k1_aN, Affine.smul_eq hg.ok 0 k1_aN,
      Affine.add_eq hg.ok 0 k1_aN] at h
    refine ⟨h1, h2.1, R, _, hR0, ?_, Res.ok.inj h, ?_⟩
    · have hlow : (header - 27).toNat / 2 < 2 := by
        have h4 := k1_two_N
        by_contra hc
        have : 2 * Signature.k1.N ≤ (header - 27).toNat / 2 * Signature.k1.N := Nat.mul_le_mul_right _ (not_lt.1 hc)
        exact h2.2 (by generalize Signature.k1.N = N at *; generalize Signature.k1.P = P at h4 ⊢; omega)
      obtain ⟨t1, t2⟩ := headers_low header hlow
      unfold Names
      rw [hxy]
      refine ⟨?_, by rw [hpar]; exact t2⟩
      rcases t1 with ⟨a, b⟩ | ⟨a, b⟩
      · left; exact ⟨a, by rw [b]; simp⟩
      · right; exact ⟨a, by rw [b]; simp⟩
    · obtain ⟨k, -, hk⟩ := hg.exists_smul (hg.G_ne_zero hG) R
      rw [← hk]
      simp only [smul_smul, ← add_smul]
      exact (hg.smul_eq_iff (hg.G_ne_zero hG) _ _).2 (recover_scalar hg.order_prime hw1 _ rfl k)

/-- secp256k1 by the formulas of the group law. -/
def k1Ops : CurveOps := affineOps (Curves.secp256k1 "") 0

theorem k1Ops_lawful : k1Ops.Lawful (Curves.secp256k1 "") 0 := affineOps_lawful (good_k1 "") 0 (by simp)

/-- **C152** All that is assumed of the external parts of package signature holds when key recovery is that of btcec. -/
theorem C152_lawful : (withBtcec refSig k1Ops).Lawful :=
  { refSig_lawful with
    compact := fun priv digest sig hp h => by
      obtain ⟨hl, hr⟩ := refCompact_recover priv digest sig hp h
      exact ⟨hl, refRecover_btcec k1Ops k1Ops_lawful sig digest _ _ hr⟩
    compact_sound := fun sig digest x y h => by
      have hl : sig.length = 65 := by
        have := (good_k1 "").fact
        obtain ⟨G, hG⟩ := (good_k1 "").exists_G
        exact ((recoverCompact_iff k1Ops k1Ops_lawful sig digest x y G hG).1 h).1
      refine ⟨hl, fun {_} G hG => ?_⟩
      obtain ⟨R, hR⟩ := C152_sound k1Ops k1Ops_lawful sig G hG
      obtain ⟨-, h2, Q, h3, h4⟩ := hR digest x y h
      exact ⟨Q, R, h3, h2, h4⟩ }

/-! ## Non-vacuity -/

/-- A signature made by `Sign` is accepted, so C152_accepts_iff and C96 speak of something. -/
example : ∃ b : Buf, b.data.length = 65 ∧ b.data.getD 0 0 ∈ ([27, 28] : List Byte) ∧
    sOf (b.data.drop 1) ≤ (Curves.secp256k1 "").N ∧
    verify (withBtcec refSig k1Ops) (.ec .ecdsa (keyOn (Curves.secp256k1 "") 5).pub) abc (some ⟨1, .bytes b⟩) = .ok true := by
  have h : (match sign (withBtcec refSig k1Ops) 1 (zeros 80) 1 (.ec .ecdsa (keyOn (Curves.secp256k1 "") 5)) abc .other with
    | some (.ok ⟨1, .bytes b⟩) => decide (b.data.length = 65 ∧ b.data.getD 0 0 ∈ ([27, 28] : List Byte) ∧
        sOf (b.data.drop 1) ≤ Signature.k1.N)
    | _ => false) = true := by decide +kernel
  split at h
  next b hs =>
    have hv := C33_sign_verify_partial (withBtcec refSig k1Ops) C152_lawful 1 (zeros 80) 1
      (.ec .ecdsa (keyOn (Curves.secp256k1 "") 5)) (keyOn_pair _ (by decide) 5 (by decide +kernel)) abc .other _ hs
      (by decide) (by rintro ⟨⟨_, h⟩, -⟩; cases h)
    obtain ⟨h1, h2, h3⟩ := of_decide_eq_true h
    exact ⟨b, h1, h2, h3, hv⟩
  · cases h

/-- The bytes of C153_deserialized_fails. -/
def panicBytes : Bytes := 1 :: 27 :: (beFix 32 (Curves.secp256k1 "").N ++ zeros 32)

/-- They are deserialized, and `Verify` panics under a key of another curve. -/
example : ∃ h' s', deserialize (heapOf panicBytes) (allOf panicBytes) = .ok (h', s') ∧
    ∃ m, verify (withBtcec refSig k1Ops) (.ec .ecdsa (keyOn Curves.p256 5).pub) abc (some (s'.map (bufOf h'))) = .panic m := by
  obtain ⟨h', s', h1, h2⟩ := C153_deserialized_fails (withBtcec refSig k1Ops) k1Ops rfl 1 .sha256 (by decide +kernel)
    (zeros 32) (by simp [zeros]) _ _ (allOf_valid panicBytes) (allOf_read panicBytes)
  exact ⟨h', s', h1, h2 .ecdsa _ abc (by decide)⟩

/-- A compact signature that C153_no_panic_partial speaks of. -/
example : (deserialize (heapOf (1 :: 27 :: List.replicate 64 1)) (allOf (1 :: 27 :: List.replicate 64 1))).isOk ∧
    rOf ((1 :: 27 :: List.replicate 64 1 : Bytes).drop 2) ≠ 0 ∧
    rOf ((1 :: 27 :: List.replicate 64 1 : Bytes).drop 2) ≠ Signature.k1.N := by decide +kernel

end Verif.Props
