import Verif.Lemmas.ECDSA
import Verif.Lemmas.EC
import Verif.Props.KeyGen
import Verif.Props.SM2Sign
/-!
# A reference instance of the external parts of package signature

ECDSA, compact signatures with key recovery, and the go-ethereum functions are real (textbook)
implementations; the hash functions and Ed25519 are stand-ins. It shows that the laws assumed of the
external parts can be met, and serves to evaluate concrete cases.
-/
namespace Verif.Signature
open Verif.Keypair Verif.Spec Verif.Spec.ECDSA Verif.Props

/-- The point of a curve with `a = 0` that has the given `x` and parity of `y`. -/
def liftX (c : Curve) (x par : ℕ) : Option ℕ :=
  (EC.sqrt3mod4 (((x : ℤ) ^ 3 + c.B) % c.P) c.P).map fun y =>
    if y.toNat % 2 = par then y.toNat else c.P - y.toNat

theorem onCurve_zero_iff {c : Curve} (x y : ℕ) :
    OnCurve c 0 x y ↔ ((y : ℤ) * y) % c.P = ((x : ℤ) ^ 3 + c.B) % c.P := by
  unfold OnCurve
  rw [← Int.emod_eq_emod_iff_emod_sub_eq_zero, zero_mul, add_zero, pow_two]

theorem liftX_sound {c : Curve} [Fact c.P.Prime] (h4 : c.P % 4 = 3) {x par y : ℕ}
    (h : liftX c x par = some y) : OnCurve c 0 x y := by
  unfold liftX at h
  have hp : (0 : ℤ) < c.P := by exact_mod_cast (Fact.out : c.P.Prime).pos
  obtain ⟨r, hr, hy⟩ := Option.map_eq_some_iff.1 h
  obtain ⟨h0, h1, h2⟩ := (EC.sqrt3_spec c.P h4 _ (Int.emod_nonneg _ hp.ne') (Int.emod_lt_of_pos _ hp)).2 r hr
  have hrn : ((r.toNat : ℕ) : ℤ) = r := Int.toNat_of_nonneg h0
  rw [onCurve_zero_iff, ← h2]
  split_ifs at hy with hpar
  · rw [← hy, hrn]
  · rw [← hy, Nat.cast_sub (by omega), hrn]
    apply Int.emod_emod_of_dvd _ (dvd_refl _) |>.symm.trans
    rw [show ((c.P : ℤ) - r) * (c.P - r) = r * r + c.P * (c.P - 2 * r) by ring, Int.add_mul_emod_self_left]
    simp

theorem liftX_complete {c : Curve} [Fact c.P.Prime] (h4 : c.P % 4 = 3) {x y : ℕ} (hon : OnCurve c 0 x y)
    (hy : y < c.P) : liftX c x (y % 2) = some y := by
  have hp : (0 : ℤ) < c.P := by exact_mod_cast (Fact.out : c.P.Prime).pos
  rw [onCurve_zero_iff] at hon
  have hsq : IsSquare (((((x : ℤ) ^ 3 + c.B) % c.P : ℤ)) : ZMod c.P) := by
    rw [← hon, ZMod.intCast_mod]; exact ⟨y, by push_cast; rfl⟩
  obtain ⟨r, hr, h0, h1, h2⟩ :=
    (EC.sqrt3_spec c.P h4 _ (Int.emod_nonneg _ hp.ne') (Int.emod_lt_of_pos _ hp)).1 hsq
  have hrn : ((r.toNat : ℕ) : ℤ) = r := Int.toNat_of_nonneg h0
  unfold liftX
  rw [hr]
  simp only [Option.map_some, Option.some.injEq]
  have hu := EC.root_unique c.P (y := y) (r := r.toNat) hy (by omega) (by rw [hrn, hon, h2])
  rcases hu with e | e | e
  · rw [if_pos (by rw [e])]; exact e.symm
  · rw [if_neg (by omega)]; omega
  · rw [if_pos (by omega)]; omega

/-- Nonce of the reference implementations. -/
def refNonce (c : Curve) (seed : Bytes) : ℕ := natOfBytes seed % (c.N - 1) + 1

theorem refNonce_range (c : Curve) (h : 2 < c.N) (seed : Bytes) :
    0 < refNonce c seed ∧ refNonce c seed < c.N := by
  have := Nat.mod_lt (natOfBytes seed) (show 0 < c.N - 1 by omega)
  unfold refNonce; omega

/-- secp256k1, whatever its name. -/
abbrev k1 : Curve := Curves.secp256k1 ""

/-- Recovery byte of the nonce point. -/
def refV (R : ℕ × ℕ) : ℕ := (if R.1 ≥ k1.N then 2 else 0) + R.2 % 2

/-- Compact signature. -/
def refCompact (priv : ECPriv) (digest : Bytes) : Res Bytes :=
  let k := refNonce k1 digest
  match refSign k1 0 priv.D (bits2int k1.N digest) k with
  | none => .err "retry"
  | some (r, s) =>
    .ok (BitVec.ofNat 8 (27 + refV (Affine.smul k1.P 0 k (k1.Gx, k1.Gy))) :: (beFix 32 r ++ beFix 32 s))

/-- Key recovery. -/
def refRecover (sig digest : Bytes) : Res (ℕ × ℕ) :=
  if sig.length ≠ 65 then .err "length"
  else
    let v := (sig.getD 0 0 - 27).toNat
    let r := rOf (sig.drop 1)
    let s := sOf (sig.drop 1)
    let x := r + v / 2 * k1.N
    if r % k1.N = 0 ∨ x ≥ k1.P then .err "range"
    else
      match liftX k1 x (v % 2) with
      | none => .err "not a point"
      | some y =>
        if y ≥ k1.P then .err "not a point"
        else
          let w := SM2.fermatInverse r k1.N
          let e := bits2int k1.N digest
          .ok (Affine.add k1.P 0 (Affine.smul k1.P 0 (s * w) (x, y))
            (Affine.smul k1.P 0 ((k1.N - e % k1.N) * w) (k1.Gx, k1.Gy)))

theorem k1_two : 2 < k1.N := by decide +kernel
theorem k1_four : k1.P % 4 = 3 := by decide +kernel
theorem k1_aN : (((0 : ℕ)) : ZMod k1.P) = ((0 : ℤ) : ZMod k1.P) := by simp

/-- The equation solved by key recovery. -/
theorem recover_scalar {N : ℕ} (hN : N.Prime) {r s w e : ℕ} (hw : r * w % N = 1) (t : ℕ)
    (ht : t = N - e % N) (k : ℕ) :
    (r * (s * w * k + t * w) + e) % N = (s * k) % N := by
  haveI : Fact N.Prime := ⟨hN⟩
  rw [← ZMod.natCast_eq_natCast_iff']
  have h1 : ((r * w : ℕ) : ZMod N) = ((1 : ℕ) : ZMod N) := by
    rw [ZMod.natCast_eq_natCast_iff', hw, Nat.mod_eq_of_lt hN.one_lt]
  have h2 : ((t + e : ℕ) : ZMod N) = 0 := by
    rw [ZMod.natCast_eq_zero_iff, ht]
    have := Nat.mod_lt e hN.pos
    exact ⟨1 + e / N, by have := Nat.mod_add_div e N; rw [mul_add]; omega⟩
  push_cast at *
  linear_combination (↑s * ↑k + (t : ZMod N)) * h1 + h2

/-- The name of the curve object does not matter for its points. -/
theorem xy_name (nm : String) (Q : Pt (Curves.secp256k1 nm) 0) :
    @xy (Curves.secp256k1 nm) 0 Q = @xy k1 0 Q := by cases Q <;> rfl

theorem ethPair_k1 {priv : ECPriv} (h : EthPair priv) [Fact k1.P.Prime] (G : Pt k1 0)
    (hG : xy G = (k1.Gx, k1.Gy)) : priv.D % k1.N ≠ 0 ∧ (priv.pub.x, priv.pub.y) = xy (priv.D • G) := by
  obtain ⟨nm, -, h1, h2⟩ := h
  haveI : Fact (Curves.secp256k1 nm).P.Prime := ‹Fact k1.P.Prime›
  exact ⟨h1, (h2 G ((xy_name nm G).trans hG)).trans (xy_name nm _)⟩

theorem refRecover_sound (sig digest : Bytes) (x y : ℕ) (h : refRecover sig digest = .ok (x, y)) :
    sig.length = 65 ∧ ∀ [Fact k1.P.Prime] (G : Pt k1 0), xy G = (k1.Gx, k1.Gy) →
    ∃ Q R : Pt k1 0, xy Q = (x, y) ∧ (xy R).1 % k1.N = rOf (sig.drop 1) % k1.N ∧
      rOf (sig.drop 1) • Q + bits2int k1.N digest • G = sOf (sig.drop 1) • R := by
  have hg : GoodCurve k1 0 := good_k1 ""
  unfold refRecover at h
  simp only at h
  split_ifs at h with h1 h2
  refine ⟨by omega, fun {_} G hG => ?_⟩
  set v := (sig.getD 0 0 - 27).toNat
  set r := rOf (sig.drop 1)
  set s := sOf (sig.drop 1)
  cases hl : liftX k1 (r + v / 2 * k1.N) (v % 2) with
  | none => rw [hl] at h; cases h
  | some y' =>
    rw [hl] at h
    simp only at h
    split_ifs at h with h3
    have hon := liftX_sound k1_four hl
    have hxy := Affine.xy_ofXY hg.ok hon (by omega) (by omega)
    set R := Affine.ofXY hg.ok hon with hR
    have hR0 : R ≠ 0 := Affine.ofXY_ne_zero hg.ok hon
    set w := SM2.fermatInverse r k1.N with hw
    have hw1 := (SM2.fermatInverse_spec hg.order_prime k1_two r).1 (fun e => h2 (Or.inl e))
    rw [← hw] at hw1
    rw [← hxy, ← hG, Affine.smul_eq hg.ok 0 k1_aN, Affine.smul_eq hg.ok 0 k1_aN,
      Affine.add_eq hg.ok 0 k1_aN] at h
    have hQ := Res.ok.inj h
    refine ⟨_, R, hQ, ?_, ?_⟩
    · rw [hxy]; generalize v / 2 = q; generalize k1.N = N; exact Nat.add_mul_mod_self_right _ _ _
    · obtain ⟨k, -, hk⟩ := hg.exists_smul (hg.G_ne_zero hG) R
      rw [← hk]
      simp only [smul_smul, ← add_smul]
      exact (hg.smul_eq_iff (hg.G_ne_zero hG) _ _).2 (recover_scalar hg.order_prime hw1 _ rfl k)

theorem refCompact_recover (priv : ECPriv) (digest sig : Bytes) (hp : EthPair priv)
    (h : refCompact priv digest = .ok sig) :
    sig.length = 65 ∧ refRecover sig digest = .ok (priv.pub.x, priv.pub.y) := by
  have hg : GoodCurve k1 0 := good_k1 ""
  haveI := hg.fact
  obtain ⟨G, hG⟩ := hg.exists_G
  obtain ⟨hD, hpub⟩ := ethPair_k1 hp G hG
  unfold refCompact at h
  obtain ⟨hk0, hk⟩ := refNonce_range k1 k1_two digest
  generalize refNonce k1 digest = k at h hk0 hk
  simp only at h
  cases hs : refSign k1 0 priv.D (bits2int k1.N digest) k with
  | none => rw [hs] at h; cases h
  | some rs =>
    obtain ⟨r, s⟩ := rs
    rw [hs] at h
    have hsig := (Res.ok.inj h).symm
    have hx : Affine.smul k1.P 0 k (k1.Gx, k1.Gy) = xy (k • G) := by
      rw [← hG]; exact Affine.smul_eq hg.ok 0 k1_aN k G
    -- what `refSign` computed
    have hr : r = (xy (k • G)).1 % k1.N ∧ r ≠ 0 ∧ s < k1.N ∧
        s = SM2.fermatInverse k k1.N * (bits2int k1.N digest + r * priv.D) % k1.N := by
      unfold refSign at hs
      rw [hx] at hs
      simp only at hs
      split_ifs at hs with h0
      simp only [Option.some.injEq, Prod.mk.injEq] at hs
      obtain ⟨e1, e2⟩ := hs
      rw [e1] at e2 h0
      exact ⟨e1.symm, fun e => h0 (Or.inl e), e2 ▸ Nat.mod_lt _ hg.order_prime.pos, e2.symm⟩
    obtain ⟨hr, hr0, hsN, hseq⟩ := hr
    have hrN : r < k1.N := hr ▸ Nat.mod_lt _ hg.order_prime.pos
    have hN256 : k1.N < 256 ^ 32 := by decide +kernel
    have hkG : k • G ≠ 0 := hg.smul_ne_zero (hg.G_ne_zero hG) hk0 hk
    obtain ⟨hon, hxP, hyP⟩ := Affine.xy_onCurve _ hkG
    have hP2N : k1.P < 2 * k1.N := by decide +kernel
    set X := (xy (k • G)).1 with hX
    set Y := (xy (k • G)).2 with hY
    have hv4 : refV (xy (k • G)) < 4 := by unfold refV; split_ifs <;> omega
    have hlen : sig.length = 65 := by rw [hsig]; simp
    have hvv : (sig.getD 0 0 - 27).toNat = refV (xy (k • G)) := by
      rw [hsig, hx]
      generalize refV (xy (k • G)) = v at hv4
      simp only [List.getD_cons_zero]
      interval_cases v <;> rfl
    have hrr : rOf (sig.drop 1) = r := by
      rw [hsig]; unfold rOf
      rw [List.drop_one, List.tail_cons, List.take_left' (beFix_length _ _),
        natOfBytes_beFix_of_lt (by omega)]
    have hss : sOf (sig.drop 1) = s := by
      rw [hsig]; unfold sOf
      rw [List.drop_one, List.tail_cons, List.drop_left' (beFix_length _ _),
        List.take_of_length_le (by simp), natOfBytes_beFix_of_lt (by omega)]
    have hxx : r + refV (xy (k • G)) / 2 * k1.N = X := by
      rw [hr]; unfold refV
      split_ifs with hc
      · have e1 : X % k1.N = X - k1.N := by
          rw [Nat.mod_eq_sub_mod hc, Nat.mod_eq_of_lt (by omega)]
        have : (2 + Y % 2) / 2 = 1 := by omega
        rw [this, e1]; change k1.N ≤ X at hc; omega
      · have e1 : X % k1.N = X := Nat.mod_eq_of_lt (by omega)
        have : (0 + Y % 2) / 2 = 0 := by omega
        rw [this, e1]; omega
    have hpar : refV (xy (k • G)) % 2 = Y % 2 := by unfold refV; split_ifs <;> omega
    refine ⟨hlen, ?_⟩
    unfold refRecover
    simp only [hvv, hrr, hss]
    rw [if_neg (by omega), hxx, hpar, liftX_complete k1_four hon hyP]
    rw [if_neg (by
      rintro (h0 | h0)
      · rw [Nat.mod_eq_of_lt hrN] at h0; exact hr0 h0
      · omega)]
    simp only
    rw [if_neg (by omega)]
    have hw1 := (SM2.fermatInverse_spec hg.order_prime k1_two r).1 (by
      rw [Nat.mod_eq_of_lt hrN]; exact hr0)
    have hki := (SM2.fermatInverse_spec hg.order_prime k1_two k).1 (by
      rw [Nat.mod_eq_of_lt hk]; omega)
    have hXY : (X, Y) = xy (k • G) := rfl
    rw [hXY, ← hG, Affine.smul_eq hg.ok 0 k1_aN, Affine.smul_eq hg.ok 0 k1_aN,
      Affine.add_eq hg.ok 0 k1_aN, hpub]
    refine congrArg Res.ok (congrArg xy ?_)
    rw [smul_smul, ← add_smul]
    refine (hg.smul_eq_iff (hg.G_ne_zero hG) _ _).2 ?_
    generalize SM2.fermatInverse r k1.N = w at hw1
    generalize SM2.fermatInverse k k1.N = ki at hki hseq
    generalize bits2int k1.N digest = e at hseq
    have hNp := hg.order_prime
    generalize k1.N = N at *
    haveI : Fact N.Prime := ⟨hNp⟩
    rw [← ZMod.natCast_eq_natCast_iff']
    have c1 : ((r * w : ℕ) : ZMod N) = ((1 : ℕ) : ZMod N) := by
      rw [ZMod.natCast_eq_natCast_iff', hw1, Nat.mod_eq_of_lt hNp.one_lt]
    have c2 : ((k * ki : ℕ) : ZMod N) = ((1 : ℕ) : ZMod N) := by
      rw [ZMod.natCast_eq_natCast_iff', hki, Nat.mod_eq_of_lt hNp.one_lt]
    have c3 : ((s : ℕ) : ZMod N) = ((ki * (e + r * priv.D) : ℕ) : ZMod N) := by
      rw [ZMod.natCast_eq_natCast_iff', hseq, Nat.mod_mod]
    have c4 : ((N - e % N : ℕ) : ZMod N) = -(e : ZMod N) := by
      rw [Nat.cast_sub (Nat.mod_lt _ hNp.pos).le]; simp
    push_cast at c1 c2 c3 ⊢
    rw [c4, c3]
    linear_combination (w : ZMod N) * (e + r * priv.D) * c2 + (priv.D : ZMod N) * c1

/-! ## The instance -/

/-- Coefficient `a` as a natural number. -/
def refA (c : Curve) : ℕ := if c.name = "" then 0 else c.P - 3

theorem refA_cast (c : Curve) (hc : c ∈ Curves.all "") :
    ((refA c : ℕ) : ZMod c.P) = ((curveA "" c : ℤ) : ZMod c.P) := by
  simp only [Curves.all, List.mem_cons, List.not_mem_nil, or_false] at hc
  have key : ∀ c' : Curve, c'.name ≠ "" → (((c'.P - 3 : ℕ)) : ZMod c'.P) = ((-3 : ℤ) : ZMod c'.P) →
      ((refA c' : ℕ) : ZMod c'.P) = ((curveA "" c' : ℤ) : ZMod c'.P) := by
    intro c' h1 h2
    unfold refA curveA
    rw [if_neg h1, if_neg h1]; exact h2
  rcases hc with rfl | rfl | rfl | rfl | rfl | rfl
  · exact key _ (by decide) Curves.p224_aN
  · exact key _ (by decide) Curves.p256_aN
  · exact key _ (by decide) Curves.p384_aN
  · exact key _ (by decide) Curves.p521_aN
  · have hn : (Curves.secp256k1 "").name = "" := rfl
    unfold refA curveA; rw [if_pos hn, if_pos hn]; simp
  · exact key _ (by decide) Curves.sm2_aN

theorem two_lt_of_mem (c : Curve) (hc : c ∈ Curves.all "") : 2 < c.N := by
  simp only [Curves.all, List.mem_cons, List.not_mem_nil, or_false] at hc
  rcases hc with rfl | rfl | rfl | rfl | rfl | rfl <;> decide +kernel

/-- go-ethereum `Sign`: 32-byte digests, low `s`. The recovery byte is not computed. -/
def refEthSign (digest : Bytes) (priv : ECPriv) : Res Bytes :=
  if digest.length ≠ 32 then .err "hash is required to be exactly 32 bytes"
  else
    match refSign k1 0 priv.D (bits2int k1.N digest) (refNonce k1 digest) with
    | none => .err "retry"
    | some (r, s) => if 2 * s ≤ k1.N then .ok (beFix 32 r ++ beFix 32 s ++ [0]) else .err "retry"

/-- go-ethereum `VerifySignature`. -/
def refEthVerify (kb digest sig : Bytes) : Bool :=
  refVerify k1 0 (natOfBytes ((kb.drop 1).take 32), natOfBytes (kb.drop 33)) (bits2int k1.N digest)
    (rOf sig) (sOf sig) && decide (2 * sOf sig ≤ k1.N)

/-- The instance. -/
def refSig : Ext where
  k1name := ""
  extHash _ m := beFix 32 (natOfBytes m + 1)
  sm2 := refSM2
  ecdsaSign priv digest rand :=
    let c := priv.pub.curve
    match refSign c (refA c) priv.D (bits2int c.N digest) (refNonce c rand) with
    | none => .err "retry"
    | some rs => .ok rs
  ecdsaVerify pub digest r s :=
    refVerify pub.curve (refA pub.curve) (pub.x, pub.y) (bits2int pub.curve.N digest) r s
  signCompact := refCompact
  recoverCompact := refRecover
  edPublic seed := beFix 32 (natOfBytes seed)
  edSig key _ := beFix 64 (natOfBytes (key.drop 32))
  edCheck pub _ sig := sig == beFix 64 (natOfBytes pub)
  ethSign := refEthSign
  ethVerify := refEthVerify

theorem refSig_lawful : refSig.Lawful where
  k1name := Or.inl rfl
  sm2 := refSM2_lawful
  ecdsa_sign := by
    intro priv digest rand r s hp h _ G hG
    have hc : priv.pub.curve ∈ Curves.all "" := hp.1
    have h2 := two_lt_of_mem _ hc
    obtain ⟨hk0, hk⟩ := refNonce_range priv.pub.curve h2 rand
    refine refSign_signed (good_of_mem "" (Or.inl rfl) _ hc) h2 (refA priv.pub.curve)
      (refA_cast _ hc) hG hk0 hk ?_
    change (match refSign priv.pub.curve (refA priv.pub.curve) priv.D (bits2int priv.pub.curve.N digest)
      (refNonce priv.pub.curve rand) with
      | none => Res.err "retry"
      | some rs => .ok rs) = .ok (r, s) at h
    split at h
    · cases h
    · rename_i hs; rw [hs, Res.ok.inj h]
  ecdsa_verify := by
    intro pub digest r s hc _ G Q hG _ hxy
    have hc : pub.curve ∈ Curves.all "" := hc
    change refVerify _ _ (pub.x, pub.y) _ r s = true ↔ _
    rw [← hxy]
    exact refVerify_iff (good_of_mem "" (Or.inl rfl) _ hc) (two_lt_of_mem _ hc) (refA pub.curve)
      (refA_cast _ hc) hG _ r s
  compact := refCompact_recover
  compact_sound := refRecover_sound
  ed_public seed := beFix_length _ _
  ed_sig _ _ := beFix_length _ _
  ed := by
    intro seed msg hl
    simp only [refSig]
    rw [List.drop_left' hl]
    simp
  eth_sign := by
    intro priv digest sig hp h
    have hg : GoodCurve k1 0 := good_k1 ""
    change refEthSign digest priv = .ok sig at h
    unfold refEthSign at h
    split_ifs at h with hl
    obtain ⟨hk0, hk⟩ := refNonce_range k1 k1_two digest
    generalize refNonce k1 digest = k at *
    split at h
    · cases h
    · rename_i r s hs
      split_ifs at h with hlow
      have hsig := (Res.ok.inj h).symm
      refine ⟨by omega, by rw [hsig]; simp, fun {_} G hG => ?_⟩
      have hsd := refSign_signed hg k1_two 0 k1_aN hG hk0 hk hs
      have hN256 : k1.N < 256 ^ 32 := by decide +kernel
      obtain ⟨_, _, _, hr, _, _, hsN, _⟩ := id hsd
      have hrN : r < k1.N := hr ▸ Nat.mod_lt _ hg.order_prime.pos
      have hrr : rOf sig = r := by
        rw [hsig]; unfold rOf
        rw [List.append_assoc, List.take_left' (beFix_length _ _), natOfBytes_beFix_of_lt (by omega)]
      have hss : sOf sig = s := by
        rw [hsig]; unfold sOf
        rw [List.append_assoc, List.drop_left' (beFix_length _ _), List.take_left' (beFix_length _ _),
          natOfBytes_beFix_of_lt (by omega)]
      rw [hrr, hss]
      exact ⟨hsd, hlow⟩
  eth_verify := by
    intro pub digest sig _ _ _ G Q hG hQ hxy
    have hg : GoodCurve k1 0 := good_k1 ""
    change refEthVerify (fromECDSAPub pub) digest sig = true ↔ _
    unfold refEthVerify fromECDSAPub
    obtain ⟨-, hx, hy⟩ := Affine.xy_onCurve Q hQ
    have hP256 : k1.P < 256 ^ 32 := by decide +kernel
    rw [hxy] at hx hy
    have e1 : natOfBytes (((4 :: (beFix 32 pub.x ++ beFix 32 pub.y) : Bytes).drop 1).take 32) = pub.x := by
      rw [List.drop_one, List.tail_cons, List.take_left' (beFix_length _ _)]
      exact natOfBytes_beFix_of_lt (lt_trans hx hP256)
    have e2 : natOfBytes ((4 :: (beFix 32 pub.x ++ beFix 32 pub.y) : Bytes).drop 33) = pub.y := by
      rw [List.drop_succ_cons, List.drop_left' (beFix_length _ _)]
      exact natOfBytes_beFix_of_lt (lt_trans hy hP256)
    rw [e1, e2, ← hxy, Bool.and_eq_true, refVerify_iff hg k1_two 0 k1_aN hG, decide_eq_true_iff]

/-- The key pair with scalar `d` on a curve. -/
def keyOn (c : Curve) (d : Nat) : ECPriv :=
  ⟨d, ⟨c, (Affine.smul c.P (refA c) d (c.Gx, c.Gy)).1, (Affine.smul c.P (refA c) d (c.Gx, c.Gy)).2⟩⟩

theorem keyOn_pair (c : Curve) (hc : c ∈ Curves.all "") (d : Nat) (hd : d % c.N ≠ 0) :
    ECPair "" (keyOn c d) := by
  refine ⟨hc, rfl, hd, ?_⟩
  intro hF G hG
  haveI : Fact c.P.Prime := hF
  have hg := good_of_mem "" (Or.inl rfl) c hc
  have := Affine.smul_eq (c := c) (a := curveA "" c) hg.ok (refA c) (refA_cast c hc) d G
  show (Affine.smul c.P (refA c) d (c.Gx, c.Gy)) = xy (d • G)
  refine Eq.trans ?_ this
  exact congrArg _ hG.symm

end Verif.Signature
