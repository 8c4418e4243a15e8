import Verif.Lemmas.Amd64Use
/-!
# C120: the VRF on amd64

As for SM2 encryption (`Props/Amd64Enc.lean`): compared with curve methods that compute in the group of points.
-/
namespace Verif.Props
open Verif Verif.Spec Verif.Spec.P256
open Verif.AES (read_length)

/-- The order of the SM2 group. -/
local notation "n" => Curves.sm2.N

/-- **C120** `Vrf` on amd64 returns what it returns with the same random bytes and correct curve methods but for one
mistake: a private key or nonce `n - 6` is taken for 0 where the hash point is multiplied (what comes of such a key is
`C120_vrf_key`). So with other keys and nonces it returns what it returns with a correct curve implementation. For every
SM2 key pair and every message. Missing: runs that depend on an inexact operation. -/
theorem C120_vrf_partial (E : VRF.Ext) (hE : E.Lawful) (t : Keypair.Alg) (sk : ECPriv) (hc : sk.pub.curve = Curves.sm2)
    (msg : Bytes) (hm : msg.length < 2 ^ 59) (h : Heap) (r : Bytes) (draws : Nat → List Nat) (fuel : Nat) (spare : Bytes)
    (hb : ExactBase (bytesOfNat (natOfBytes r)))
    (he : ∀ x y, VRF.IsHashPoint (E.hash .sm3) Curves.sm2 (-3) (VRF.enc Curves.sm2 (sk.pub.x, sk.pub.y) ++ msg) x y →
      ExactMult x y (bytesOfNat sk.D) ∧ ExactMult x y (bytesOfNat (natOfBytes r))) :
    VRF.vrf (VRF.amd64 E) h (.ec t sk) msg (.ok r) draws fuel spare =
      VRF.vrf (vrfN6Zero E) h (.ec t sk) msg (.ok r) draws fuel spare ∧
    (sk.D % n ≠ n - 6 → natOfBytes r % n ≠ n - 6 →
      VRF.vrf (VRF.amd64 E) h (.ec t sk) msg (.ok r) draws fuel spare =
        VRF.vrf E h (.ec t sk) msg (.ok r) draws fuel spare) := by
  obtain ⟨D, ⟨c, x, y⟩⟩ := sk
  dsimp only at hc he
  subst hc
  have key : ∀ pkb H, VRF.marshal Curves.sm2 (x, y) = .ok pkb →
      VRF.hashToCurve E .sm3 Curves.sm2 (pkb ++ msg) draws = some (some H) → Curves.sm2.byteSize = VRF.size .sm3 →
      ((VRF.amd64 E).ops Curves.sm2).mult H D = (E.ops Curves.sm2).mult H (amd64Scalar D) ∧
      ((VRF.amd64 E).ops Curves.sm2).mult H (natOfBytes r) =
        (E.ops Curves.sm2).mult H (amd64Scalar (natOfBytes r)) := by
    intro pkb H hp hH hsz
    have hpt := vrf_hash_onCurve hE hsz hm hp hH
    have hon : OnCurve Curves.sm2 (-3) H.1 H.2 := by obtain ⟨i, -, -, -, -, hon, -⟩ := hpt; exact hon
    obtain ⟨e1, e2⟩ := he _ _ hpt
    exact ⟨vrf_amd64_mult hE hon e1, vrf_amd64_mult hE hon e2⟩
  constructor
  · unfold VRF.vrf
    dsimp only
    rw [getHash_sm2, getHash_sm2]
    dsimp only
    rw [evaluate_congr (E := vrfN6Zero E) ((vrf_amd64_k1name E).trans (vrf_n6_k1name E).symm)
      ((vrf_amd64_extHash E).trans (vrf_n6_extHash E).symm) _ _ _ _ _ _
      ((vrf_amd64_base hE hb).trans (vrf_n6_base E _).symm)]
    intro pkb H hp hH hsz
    rw [hashToCurve_congr (vrf_n6_k1name E) (vrf_n6_extHash E)] at hH
    obtain ⟨k1, k2⟩ := key pkb H hp hH hsz
    exact ⟨k1.trans (vrf_n6_mult E H D).symm, k2.trans (vrf_n6_mult E H (natOfBytes r)).symm⟩
  · intro hD hr
    dsimp only at hD
    rw [amd64Scalar_of_mod_ne hD, amd64Scalar_of_mod_ne hr] at key
    unfold VRF.vrf
    dsimp only
    rw [getHash_sm2, getHash_sm2]
    dsimp only
    rw [evaluate_congr (vrf_amd64_k1name E) (vrf_amd64_extHash E) _ _ _ _ _ _ (vrf_amd64_base hE hb)]
    exact key

/-- **C120** `Verify` of the VRF on amd64 gives the answer of correct curve methods but for one mistake: a challenge or
a response congruent to `n - 6` is taken for 0 where a point is multiplied. So for other proofs it gives the answer of a
correct curve implementation. For every SM2 public key on the curve and all messages, values and proofs. Missing: runs
that depend on an inexact operation. -/
theorem C120_verify_partial (E : VRF.Ext) (hE : E.Lawful) (t : Keypair.Alg) (x y : Nat)
    (hon : OnCurve Curves.sm2 (-3) x y) (msg : Bytes) (hm : msg.length < 2 ^ 59) (h : Heap) (v q : Slice)
    (hv : v.Valid h) (hq : q.Valid h) (draws : Nat → List Nat) (fuel : Nat) (s u : Nat)
    (hs : s = natOfBytes ((q.read h).take 32)) (hu : u = natOfBytes ((q.read h).drop 32))
    (hb : ExactBase (bytesOfNat u)) (hpk : ExactMult x y (bytesOfNat s))
    (hU : ExactMult (natOfBytes (((v.read h).drop 1).take 32)) (natOfBytes ((v.read h).drop 33)) (bytesOfNat s))
    (he : ∀ hx hy, VRF.IsHashPoint (E.hash .sm3) Curves.sm2 (-3) (VRF.enc Curves.sm2 (x, y) ++ msg) hx hy →
      ExactMult hx hy (bytesOfNat u)) :
    VRF.verify (VRF.amd64 E) h (.ec t ⟨Curves.sm2, x, y⟩) msg v q draws fuel =
      VRF.verify (vrfN6Zero E) h (.ec t ⟨Curves.sm2, x, y⟩) msg v q draws fuel ∧
    (s % n ≠ n - 6 → u % n ≠ n - 6 →
      VRF.verify (VRF.amd64 E) h (.ec t ⟨Curves.sm2, x, y⟩) msg v q draws fuel =
        VRF.verify E h (.ec t ⟨Curves.sm2, x, y⟩) msg v q draws fuel) := by
  rw [verify_bytes (getHash_sm2 _) hq, verify_bytes (getHash_sm2 _) hq, verify_bytes (getHash_sm2 _) hq]
  have hlv := read_length h v hv
  have hlq := read_length h q hq
  have hbs : Curves.sm2.byteSize = 32 := by decide
  split
  · exact ⟨rfl, fun _ _ => rfl⟩
  · rename_i hl
    rw [not_or, not_not, not_not] at hl
    rw [hbs] at hl
    have e1 : (q.read h ++ v.read h).take Curves.sm2.byteSize = (q.read h).take 32 := by
      rw [hbs, List.take_append_of_le_length (by omega)]
    have e2 : ((q.read h ++ v.read h).drop Curves.sm2.byteSize).take Curves.sm2.byteSize = (q.read h).drop 32 := by
      rw [hbs, List.drop_append_of_le_length (by omega), List.take_left' (by rw [List.length_drop]; omega)]
    have e3 : ((q.read h ++ v.read h).drop (2 * Curves.sm2.byteSize)).take (2 * Curves.sm2.byteSize + 1) = v.read h := by
      rw [hbs, List.drop_left' (by omega), List.take_of_length_le (by omega)]
    have hs' : s = natOfBytes ((q.read h ++ v.read h).take Curves.sm2.byteSize) := by rw [e1, hs]
    have hu' : u = natOfBytes (((q.read h ++ v.read h).drop Curves.sm2.byteSize).take Curves.sm2.byteSize) := by
      rw [e2, hu]
    have k1 := vrf_amd64_mult hE hon hpk
    have k2 : ∀ U, VRF.unmarshal E Curves.sm2 (v.read h) = some U →
        ((VRF.amd64 E).ops Curves.sm2).mult U s = (E.ops Curves.sm2).mult U (amd64Scalar s) := by
      intro U hU'
      have := good_sm2.fact
      obtain ⟨V, hV, hVU, hvr⟩ := VRF.unmarshal_some hE (by simp [Curves.all]) hU'
      have hond := (Affine.xy_onCurve V hV).1
      rw [hVU, curveA_sm2 hE.k1name] at hond
      unfold VRF.unmarshal at hU'
      split at hU'
      · cases hU'
      · split at hU'
        · cases hU'
        · dsimp only at hU'
          split at hU'
          · cases hU'
          · split at hU'
            · cases hU'
            · rw [hbs] at hU'
              have hUe := Option.some.inj hU'
              rw [← hUe] at hond ⊢
              exact vrf_amd64_mult hE hond hU
    have k3 : ∀ pkb H, VRF.marshal Curves.sm2 (x, y) = .ok pkb →
        VRF.hashToCurve E .sm3 Curves.sm2 (pkb ++ msg) draws = some (some H) → Curves.sm2.byteSize = VRF.size .sm3 →
        ((VRF.amd64 E).ops Curves.sm2).mult H u = (E.ops Curves.sm2).mult H (amd64Scalar u) := by
      intro pkb H hp hH hsz
      have hpt := vrf_hash_onCurve hE hsz hm hp hH
      have hon : OnCurve Curves.sm2 (-3) H.1 H.2 := by obtain ⟨i, -, -, -, -, hon, -⟩ := hpt; exact hon
      exact vrf_amd64_mult hE hon (he _ _ hpt)
    constructor
    · rw [proofToHash_congr (E := vrfN6Zero E) ((vrf_amd64_k1name E).trans (vrf_n6_k1name E).symm)
        ((vrf_amd64_extHash E).trans (vrf_n6_extHash E).symm)
        ((vrf_amd64_isOnCurve E).trans (vrf_n6_isOnCurve E).symm) _ _ _ _ _ _ hs' hu'
        ((vrf_amd64_add E).trans (vrf_n6_add E).symm) ((vrf_amd64_base hE hb).trans (vrf_n6_base E _).symm)]
      · exact k1.trans (vrf_n6_mult E (x, y) s).symm
      · intro U hU'
        rw [e3, unmarshal_congr (vrf_n6_isOnCurve E)] at hU'
        exact (k2 U hU').trans (vrf_n6_mult E U s).symm
      · intro pkb H hp hH hsz
        rw [hashToCurve_congr (vrf_n6_k1name E) (vrf_n6_extHash E)] at hH
        exact (k3 pkb H hp hH hsz).trans (vrf_n6_mult E H u).symm
    · intro hs6 hu6
      rw [amd64Scalar_of_mod_ne hs6] at k1 k2
      rw [amd64Scalar_of_mod_ne hu6] at k3
      rw [proofToHash_congr (vrf_amd64_k1name E) (vrf_amd64_extHash E) (vrf_amd64_isOnCurve E) _ _ _ _ _ _ hs' hu'
        (vrf_amd64_add E) (vrf_amd64_base hE hb) k1 (fun U hU' => k2 U (by rw [e3] at hU'; exact hU')) k3]

/-- The VRF value that stands for no point. -/
theorem verify_zero (E : VRF.Ext) (h0 : E.isOnCurve Curves.sm2 0 0 = false) (t : Keypair.Alg) (x y : Nat) (msg : Bytes)
    (h : Heap) (v q : Slice) (hq : q.Valid h) (hv : v.read h = 4 :: List.replicate 64 0) (draws : Nat → List Nat)
    (fuel : Nat) (h' : Heap) :
    VRF.verify E h (.ec t ⟨Curves.sm2, x, y⟩) msg v q draws fuel ≠ some (.ok (h', true)) := by
  rw [verify_bytes (getHash_sm2 _) hq]
  have hlq := read_length h q hq
  have hbs : Curves.sm2.byteSize = 32 := by decide
  split
  · intro h; cases h
  · rename_i hl
    rw [not_or, not_not, not_not] at hl
    have hu : VRF.unmarshal E Curves.sm2 (4 :: List.replicate 64 0) = none := by
      unfold VRF.unmarshal
      rw [hbs, if_neg (by decide), if_neg (by decide)]
      dsimp only
      have ex : natOfBytes (((4 :: List.replicate 64 (0 : Byte)).drop 1).take 32) = 0 := by decide
      have ey : natOfBytes ((4 :: List.replicate 64 (0 : Byte)).drop (1 + 32)) = 0 := by decide
      rw [ex, ey, h0]
      split <;> rfl
    have hp : VRF.proofToHash E .sm3 ⟨Curves.sm2, x, y⟩ msg (q.read h ++ v.read h) draws fuel =
        some (.err "invalid VRF proof") := by
      have e3 : ((q.read h ++ v.read h).drop (2 * Curves.sm2.byteSize)).take (2 * Curves.sm2.byteSize + 1) =
          4 :: List.replicate 64 0 := by
        rw [hbs] at hl ⊢
        rw [List.drop_left' (by omega), hv, List.take_of_length_le (by decide)]
      unfold VRF.proofToHash
      dsimp only
      rw [e3, hu, if_neg (by rw [hbs]; decide), if_neg]
      rw [hbs] at hl ⊢
      rw [List.length_append, hv, hlq, hl.2]
      decide
    rw [hp]
    intro h; cases h

/-- The last part of the proof. -/
theorem evaluate_value {E : VRF.Ext} {a : Signature.HashAlg} {priv : ECPriv} {msg r proof : Bytes}
    {draws : Nat → List Nat} {fuel : Nat}
    (h : VRF.evaluate E a priv msg (.ok r) draws fuel = some (.ok proof)) :
    priv.pub.curve.byteSize = VRF.size a ∧
    ∃ pkb H value pre, VRF.marshal priv.pub.curve (priv.pub.x, priv.pub.y) = .ok pkb ∧
      VRF.hashToCurve E a priv.pub.curve (pkb ++ msg) draws = some (some H) ∧
      VRF.marshal priv.pub.curve ((E.ops priv.pub.curve).mult H priv.D) = .ok value ∧
      proof = pre ++ value ∧ pre.length = 2 * priv.pub.curve.byteSize := by
  unfold VRF.evaluate at h
  dsimp only at h
  split at h
  · cases h
  · rename_i hsz
    rw [not_not] at hsz
    refine ⟨hsz, ?_⟩
    cases hpk : VRF.marshal priv.pub.curve (priv.pub.x, priv.pub.y) with
    | err m => rw [hpk] at h; cases h
    | panic m => rw [hpk] at h; cases h
    | ok pkb =>
      rw [hpk] at h
      dsimp only at h
      cases hH : VRF.hashToCurve E a priv.pub.curve (pkb ++ msg) draws with
      | none => rw [hH] at h; cases h
      | some o =>
        rw [hH] at h
        cases o with
        | none => cases h
        | some H =>
          dsimp only at h
          unfold VRF.evalWith at h
          dsimp only at h
          cases hv : VRF.marshal priv.pub.curve ((E.ops priv.pub.curve).mult H priv.D) with
          | err m => rw [hv] at h; cases h
          | panic m => rw [hv] at h; cases h
          | ok value =>
            rw [hv] at h
            dsimp only at h
            split at h
            · cases h
            · cases h
            · unfold VRF.evalTail at h
              obtain ⟨s, -, hs⟩ := Option.map_eq_some_iff.1 h
              cases hs
              refine ⟨pkb, H, value, _, rfl, hH, hv, rfl, ?_⟩
              rw [List.length_append, beFix_length, beFix_length]
              omega

/-- **C120** With the private key `n - 6` the VRF on amd64 is useless: the value is the same for all messages, it
encodes the pair (0, 0), and no verifier accepts it, for no message, proof and public key. -/
theorem C120_vrf_key (E : VRF.Ext) (hE : E.Lawful) (t : Keypair.Alg) (sk : ECPriv) (hc : sk.pub.curve = Curves.sm2)
    (msg : Bytes) (hm : msg.length < 2 ^ 59) (h : Heap) (nonce : Res Bytes) (draws : Nat → List Nat) (fuel : Nat)
    (spare : Bytes) (hD : sk.D % n = n - 6)
    (he : ∀ x y, VRF.IsHashPoint (E.hash .sm3) Curves.sm2 (-3) (VRF.enc Curves.sm2 (sk.pub.x, sk.pub.y) ++ msg) x y →
      ExactMult x y (bytesOfNat sk.D)) (h1 : Heap) (v q : Slice)
    (hr : VRF.vrf (VRF.amd64 E) h (.ec t sk) msg nonce draws fuel spare = some (.ok (h1, v, q))) :
    v.read h1 = 4 :: List.replicate 64 0 ∧
    ∀ (t' : Keypair.Alg) (x y : Nat) (msg' : Bytes) (h2 h3 : Heap) (v' q' : Slice) (draws' : Nat → List Nat) (fuel' : Nat),
      v'.read h2 = v.read h1 → q'.Valid h2 →
      VRF.verify E h2 (.ec t' ⟨Curves.sm2, x, y⟩) msg' v' q' draws' fuel' ≠ some (.ok (h3, true)) ∧
      VRF.verify (VRF.amd64 E) h2 (.ec t' ⟨Curves.sm2, x, y⟩) msg' v' q' draws' fuel' ≠ some (.ok (h3, true)) := by
  have h0 : E.isOnCurve Curves.sm2 0 0 = false := by
    have := hE.onCurve Curves.sm2 (by simp [Curves.all]) 0 0 (by decide +kernel) (by decide +kernel)
    rw [curveA_sm2 hE.k1name] at this
    rw [Bool.eq_false_iff]
    intro h
    exact absurd (this.1 h) (by decide +kernel)
  have hval : v.read h1 = 4 :: List.replicate 64 0 := by
    obtain ⟨a, rb, proof, ha, rfl, hev, rfl, rfl, rfl⟩ := vrf_returned hr
    rw [hc, getHash_sm2] at ha
    cases ha
    obtain ⟨hsz, pkb, H, value, pre, hp, hH, hv, rfl, hl⟩ := evaluate_value hev
    rw [hc] at hsz hp hH hv hl
    rw [hashToCurve_congr (vrf_amd64_k1name E) (vrf_amd64_extHash E)] at hH
    have hpt := vrf_hash_onCurve hE hsz hm hp hH
    have hon : OnCurve Curves.sm2 (-3) H.1 H.2 := by obtain ⟨i, -, -, -, -, hon, -⟩ := hpt; exact hon
    have hmul := vrf_amd64_mult hE hon (he _ _ hpt)
    obtain ⟨P, hP, hxy, -⟩ := amd64_mult hon (he _ _ hpt)
    have h00 : (E.ops Curves.sm2).mult (H.1, H.2) 0 = (0, 0) := by
      rw [vrf_mult_law hE P 0 hP hxy, zero_smul]; rfl
    have hA : amd64Scalar sk.D = 0 := by unfold amd64Scalar; rw [if_pos hD]
    rw [hA, h00] at hmul
    have hH2 : H = (H.1, H.2) := rfl
    rw [hH2, hmul] at hv
    have hvz : value = 4 :: List.replicate 64 0 := by
      have h1 : VRF.marshal Curves.sm2 (0, 0) = .ok (4 :: List.replicate 64 0) := by decide +kernel
      rw [h1] at hv
      cases hv
      rfl
    subst hvz
    have hbs : Curves.sm2.byteSize = 32 := by decide
    rw [hc]
    simp only [Slice.read, Heap.alloc, if_true]
    rw [List.append_assoc, List.drop_left' hl, hbs, List.take_left' (by decide)]
  refine ⟨hval, fun t' x y msg' h2 h3 v' q' draws' fuel' hv hq => ?_⟩
  rw [hval] at hv
  exact ⟨verify_zero E h0 t' x y msg' h2 v' q' hq hv draws' fuel' h3,
    verify_zero _ (by rw [vrf_amd64_isOnCurve]; exact h0) t' x y msg' h2 v' q' hq hv draws' fuel' h3⟩

theorem hash_point_of {E : VRF.Ext} (hE : E.Lawful) {x y : Nat} {msg : Bytes} {H : Nat × Nat}
    (hm : msg.length < 2 ^ 59)
    (h : VRF.hashToCurve E .sm3 Curves.sm2 (VRF.enc Curves.sm2 (x, y) ++ msg) (fun _ => []) = some (some H))
    {hx hy : Nat} (hp : VRF.IsHashPoint (E.hash .sm3) Curves.sm2 (-3) (VRF.enc Curves.sm2 (x, y) ++ msg) hx hy) :
    (hx, hy) = H := by
  have hv : VRF.FitHash E.k1name Curves.sm2 .sm3 := ⟨by simp [Curves.all], by decide⟩
  have h1 := (VRF.hashToCurve_some hE hv (VRF.input_short hv (x, y) msg hm) h).1
  rw [curveA_sm2 hE.k1name] at h1
  obtain ⟨e1, e2⟩ := VRF.hashPoint_unique good_sm2 (by decide +kernel) hp h1
  rw [e1, e2]

/-- A case that meets the hypotheses of `C120_vrf_partial`: the private key 2, the message "c" and the nonce 3. -/
example : (∀ x y, VRF.IsHashPoint (VRF.refVrf.hash .sm3) Curves.sm2 (-3) (VRF.enc Curves.sm2 (twoX, twoY) ++ [0x63]) x y →
      ExactMult x y (bytesOfNat 2) ∧ ExactMult x y (bytesOfNat 3)) ∧ ExactBase (bytesOfNat 3) ∧
    made (VRF.vrf VRF.refVrf ⟨fun _ => [], 0⟩ (.ec .sm2 ⟨2, Curves.sm2, twoX, twoY⟩) [0x63] (.ok [3]) (fun _ => []) 2 []) = true := by
  refine ⟨fun x y h => ?_, by decide +kernel, by decide +kernel⟩
  have := hash_point_of VRF.refVrf_lawful (by decide)
    (H := (0xdf7014a02278c2282681146e06088fff944cf86143a05ac92abb35ea5b0f775,
      0x37ec6edf1691a2644f8d72d3c3fbfeeb1dfe1873696bf41866bbc607040fc54a)) (by decide +kernel) h
  cases this
  decide +kernel

/-- A proof (challenge 5, response 7) and, behind it, the VRF value of the case before. -/
def exProof : Heap :=
  ⟨fun _ => beFix 32 5 ++ beFix 32 7 ++ VRF.enc Curves.sm2
    (0x9f3f37e7ff86fe54e4861aa5c589bf07303f39dbabddad5033400984e68b055a,
      0xaa5c32296d26434223fefe8ac585500d5535f519b5fe6727940bee4dccf812c5), 1⟩

/-- A case that meets the hypotheses of `C120_verify_partial`. -/
example : (⟨0, 64, 65, 65⟩ : Slice).Valid exProof ∧ (⟨0, 0, 64, 64⟩ : Slice).Valid exProof ∧
    OnCurve Curves.sm2 (-3) twoX twoY ∧
    5 = natOfBytes (((⟨0, 0, 64, 64⟩ : Slice).read exProof).take 32) ∧
    7 = natOfBytes (((⟨0, 0, 64, 64⟩ : Slice).read exProof).drop 32) ∧
    5 % n ≠ n - 6 ∧ 7 % n ≠ n - 6 ∧ ExactBase (bytesOfNat 7) ∧ ExactMult twoX twoY (bytesOfNat 5) ∧
    ExactMult (natOfBytes ((((⟨0, 64, 65, 65⟩ : Slice).read exProof).drop 1).take 32))
      (natOfBytes (((⟨0, 64, 65, 65⟩ : Slice).read exProof).drop 33)) (bytesOfNat 5) ∧
    (∀ x y, VRF.IsHashPoint (VRF.refVrf.hash .sm3) Curves.sm2 (-3) (VRF.enc Curves.sm2 (twoX, twoY) ++ [0x63]) x y →
      ExactMult x y (bytesOfNat 7)) := by
  refine ⟨⟨by decide, by decide +kernel, by decide +kernel⟩, ⟨by decide, by decide +kernel, by decide +kernel⟩,
    by decide +kernel, by decide +kernel, by decide +kernel, by decide +kernel, by decide +kernel, by decide +kernel,
    by decide +kernel, by decide +kernel, fun x y h => ?_⟩
  have := hash_point_of VRF.refVrf_lawful (by decide)
    (H := (0xdf7014a02278c2282681146e06088fff944cf86143a05ac92abb35ea5b0f775,
      0x37ec6edf1691a2644f8d72d3c3fbfeeb1dfe1873696bf41866bbc607040fc54a)) (by decide +kernel) h
  cases this
  decide +kernel

/-- A case that meets the hypotheses of `C120_vrf_key`. -/
example : (∀ x y, VRF.IsHashPoint (VRF.refVrf.hash .sm3) Curves.sm2 (-3) (VRF.enc Curves.sm2 (keyN6.pub.x, keyN6.pub.y) ++ [0x63]) x y →
      ExactMult x y (bytesOfNat (n - 6))) ∧
    made (VRF.vrf (VRF.amd64 VRF.refVrf) ⟨fun _ => [], 0⟩ (.ec .sm2 keyN6) [0x63] (.ok [3]) (fun _ => []) 2 []) = true := by
  refine ⟨fun x y h => ?_, by decide +kernel⟩
  have := hash_point_of VRF.refVrf_lawful (by decide)
    (H := (0x9b43ed3d7189ae2a113dfadbcc1b00d247821d759a84a3fbbbd8e18b744b8fc4,
      0x5775ac3bdc497377116d54027cadabffb88922918b74f947ccd6476f61d6311a)) (by decide +kernel) h
  cases this
  decide +kernel

end Verif.Props
