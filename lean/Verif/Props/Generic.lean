import Verif.Lemmas.Generic
import Verif.Props.SM2Sign
import Verif.Props.SM2Enc
import Verif.Spec.VRF
/-!
# C114: the curve methods on platforms without assembly

Specification: Mathlib's group of points of `y² = x³ - 3x + B` over the prime field, and `xy`, the coordinates of a
point with `(0, 0)` for infinity (Spec/Group.lean).
Model: `Verif.Generic` (Model/Generic.lean), the methods of `elliptic.CurveParams`.
-/
namespace Verif.Props
open Verif Verif.Spec

/-- The curves of the library with coefficient -3. -/
def minus3Curves : List Curve := [Curves.p224, Curves.p256, Curves.p384, Curves.p521, Curves.sm2]

/-- Coordinates as `big.Int`s. -/
def intXY {c : Curve} (P : Pt c (-3)) : Int × Int := ((xy P).1, (xy P).2)

theorem minus3_good {c : Curve} (hc : c ∈ minus3Curves) : GoodCurve c (-3) := by
  simp only [minus3Curves, List.mem_cons, List.not_mem_nil, or_false] at hc
  rcases hc with rfl | rfl | rfl | rfl | rfl
  exacts [good_p224, good_p256, good_p384, good_p521, good_sm2]

/-- **C114** `ScalarMult`, `ScalarBaseMult`, `Add` and `Double` compute in the group of points, for every point,
infinity included, and every byte string as scalar, of any length and with leading zeros. -/
theorem C114_group (c : Curve) (hc : c ∈ minus3Curves) [Fact c.P.Prime] (P Q : Pt c (-3)) (k : Bytes) :
    Generic.scalarMult c (intXY P) k = intXY (natOfBytes k • P) ∧
    Generic.add c (intXY P) (intXY Q) = intXY (P + Q) ∧
    Generic.double c (intXY P) = intXY (P + P) ∧
    (xy P = (c.Gx, c.Gy) → Generic.scalarBaseMult c k = intXY (natOfBytes k • P)) := by
  have hok := (minus3_good hc).ok
  refine ⟨Generic.scalarMult_xy hok P k, Generic.add_xy hok P Q, Generic.double_xy hok P, fun hG => ?_⟩
  have h := Generic.scalarMult_xy hok P k
  rw [hG] at h
  exact h

/-- **C114** `IsOnCurve` decides the equation of the curve, for all integers, negative ones included. Releases of Go
that check the range refuse what is not reduced. -/
theorem C114_onCurve (checked : Bool) (c : Curve) (x y : Int) :
    Generic.isOnCurve checked c x y = true ↔
      (c.P : Int) ∣ y ^ 2 - (x ^ 3 - 3 * x + c.B) ∧ (checked = true → 0 ≤ x ∧ x < c.P ∧ 0 ≤ y ∧ y < c.P) := by
  have he : Generic.equation c x y = true ↔ (c.P : Int) ∣ y ^ 2 - (x ^ 3 - 3 * x + c.B) := by
    unfold Generic.equation
    dsimp only
    rw [decide_eq_true_iff, eq_comm, Int.emod_eq_emod_iff_emod_sub_eq_zero, Int.dvd_iff_emod_eq_zero]
    have : (y * y - (x * x * x - (x * 2 + x) + c.B)) = y ^ 2 - (x ^ 3 - 3 * x + c.B) := by ring
    rw [this]
  unfold Generic.isOnCurve
  split_ifs with h
  · simp only [Bool.false_eq_true, false_iff, not_and]
    intro _ hr
    have := hr h.1
    omega
  · rw [he]
    constructor
    · intro h'
      refine ⟨h', fun hch => ?_⟩
      by_contra hcon
      exact h ⟨hch, by omega⟩
    · exact And.left

/-- **C114** A pair that satisfies the equation stands for exactly one point of the curve, the one with the reduced
coordinates, and `ScalarMult` multiplies that point, whether or not the pair is reduced. -/
theorem C114_unreduced (c : Curve) (hc : c ∈ minus3Curves) [Fact c.P.Prime] (x y : Int)
    (hon : Generic.isOnCurve false c x y = true) :
    ∃! P : Pt c (-3), P ≠ 0 ∧ intXY P = (x % c.P, y % c.P) ∧
      ∀ k, Generic.scalarMult c (x, y) k = intXY (natOfBytes k • P) := by
  have hg := minus3_good hc
  have hP : (c.P : Int) ≠ 0 := ne_of_gt (Generic.P_pos (c := c))
  have hx := Int.emod_nonneg x hP
  have hy := Int.emod_nonneg y hP
  have hx' := (Generic.mod_range (c := c) x).2
  have hy' := (Generic.mod_range (c := c) y).2
  obtain ⟨X, hX⟩ := Int.eq_ofNat_of_zero_le hx
  obtain ⟨Y, hY⟩ := Int.eq_ofNat_of_zero_le hy
  have hXl : X < c.P := by omega
  have hYl : Y < c.P := by omega
  have hon' : OnCurve c (-3) X Y := by
    have h := ((C114_onCurve false c x y).1 hon).1
    unfold OnCurve
    rw [← hX, ← hY, ← Int.dvd_iff_emod_eq_zero, ← ZMod.intCast_zmod_eq_zero_iff_dvd]
    rw [← ZMod.intCast_zmod_eq_zero_iff_dvd] at h
    push_cast [Generic.cast_mod] at h ⊢
    linear_combination h
  have hxy := Affine.xy_ofXY hg.ok hon' hXl hYl
  have hne : Affine.ofXY hg.ok hon' ≠ 0 := Affine.ofXY_ne_zero hg.ok hon'
  refine ⟨Affine.ofXY hg.ok hon', ⟨hne, ?_, fun k => ?_⟩, ?_⟩
  · unfold intXY; rw [hxy]; exact Prod.ext hX.symm hY.symm
  · refine Generic.scalarMult_eq hg.ok hne ?_ ?_ k
    · rw [hxy]; exact hX
    · rw [hxy]; exact hY
  · rintro Q ⟨-, hQ, -⟩
    refine Affine.xy_inj hg.ok ?_
    rw [hxy]
    unfold intXY at hQ
    have h1 := congrArg Prod.fst hQ
    have h2 := congrArg Prod.snd hQ
    dsimp only at h1 h2
    exact Prod.ext (by omega) (by omega)

/-- **C114** The methods meet the contract that the models of packages ec, keypair, signature and vrf assume of
`elliptic.Curve`. -/
theorem C114_contract (c : Curve) (hc : c ∈ minus3Curves) : (Generic.ops c).Lawful c (-3) := by
  have toNat : ∀ (_ : Fact c.P.Prime) (P : Pt c (-3)), ((intXY P).1.toNat, (intXY P).2.toNat) = xy P := by
    intro _ P; simp [intXY]
  refine ⟨?_, ?_, ?_⟩
  · intro inst G hG k
    have h := (C114_group c hc G G (bytesOfNat k)).2.2.2 hG
    rw [natOfBytes_bytesOfNat] at h
    rw [← toNat inst, ← h]; rfl
  · intro inst P k
    have h := (C114_group c hc P P (bytesOfNat k)).1
    rw [natOfBytes_bytesOfNat] at h
    rw [← toNat inst (k • P), ← h]; rfl
  · intro inst P Q
    have h := (C114_group c hc P Q []).2.1
    rw [← toNat inst (P + Q), ← h]; rfl

/-- Package sm2 on a platform without assembly: the SM2 curve has neither `Inverse` nor `CombinedMult`, all curve
methods are those of `elliptic.CurveParams`; `checked` as in `Generic.isOnCurve`. -/
def portableSM2 (checked : Bool) (sha512 : Bytes → Bytes) (ctr : Bytes → Nat → Nat → Bytes) : SM2.Ext where
  ops := Generic.ops Curves.sm2
  isOnCurve x y := Generic.isOnCurve checked Curves.sm2 x y
  inverse := none
  combinedMult := none
  sha512 := sha512
  ctr := ctr

/-- **C114** On platforms without assembly everything that the theorems about package sm2 assume of the curve is
proved. Left is that a keystream has the length asked for. -/
theorem C114_sm2 (checked : Bool) (sha512 : Bytes → Bytes) (ctr : Bytes → Nat → Nat → Bytes)
    (hctr : ∀ key off len, (ctr key off len).length = len) : (portableSM2 checked sha512 ctr).Lawful := by
  have hmem : Curves.sm2 ∈ minus3Curves := by simp [minus3Curves]
  have hl := C114_contract Curves.sm2 hmem
  have hc : ∀ x y : Nat, (Curves.sm2.P : Int) ∣ (y : Int) ^ 2 - ((x : Int) ^ 3 - 3 * x + Curves.sm2.B) ↔
      OnCurve Curves.sm2 (-3) x y := by
    intro x y
    unfold OnCurve
    rw [Int.dvd_iff_emod_eq_zero]
    have : (y : Int) ^ 2 - ((x : Int) ^ 3 - 3 * x + Curves.sm2.B) =
      (y : Int) ^ 2 - ((x : Int) ^ 3 + -3 * x + Curves.sm2.B) := by ring
    rw [this]
  refine ⟨hl.base, ?_, hl.add, ?_, ?_, ?_, ?_, ?_, hctr⟩
  · intro inst P x y k hP _ he
    have h1 := congrArg Prod.fst he
    have h2 := congrArg Prod.snd he
    have h := Generic.scalarMult_eq good_sm2.ok (x := x) (y := y) hP (by rw [← h1]; rfl) (by rw [← h2]; rfl)
      (bytesOfNat k)
    rw [natOfBytes_bytesOfNat] at h
    show ((Generic.scalarMult Curves.sm2 (x, y) (bytesOfNat k)).1.toNat, _) = _
    rw [h]; rfl
  · intro x y h
    exact (hc x y).1 ((C114_onCurve checked Curves.sm2 x y).1 h).1
  · intro x y hx hy h
    exact (C114_onCurve checked Curves.sm2 x y).2 ⟨(hc x y).2 h, fun _ => by omega⟩
  · intro f h; cases h
  · intro f h; cases h
  · intro _ _ _ _ _ f h; cases h

/-- **C114** The consequence for signatures: on a platform without assembly `Verify` accepts whatever `Sign` returns,
and accepts exactly what the standard's check over the group accepts. Nothing is assumed of the curve methods. -/
theorem C114_sign_verify (checked : Bool) (sha512 : Bytes → Bytes) (ctr : Bytes → Nat → Nat → Bytes)
    (hctr : ∀ key off len, (ctr key off len).length = len) (H : Bytes → Bytes) (G : SM2.Point)
    (hG : xy G = (Curves.sm2.Gx, Curves.sm2.Gy)) (priv : ECPriv) (hp : SM2Pair G priv) (id msg : Bytes) :
    (∀ fuel rand r s, SM2.sign (portableSM2 checked sha512 ctr) H fuel rand priv id msg = some (.ok (r, s)) →
      SM2.verify (portableSM2 checked sha512 ctr) H priv.pub id msg r s = true) ∧
    ∀ r s : Int, SM2.verify (portableSM2 checked sha512 ctr) H priv.pub id msg r s = true ↔
      ∃ mz, SM2.getZ H msg priv.pub id = .ok mz ∧ SM2.Accepts G (priv.D • G) (natOfBytes (H mz)) r s := by
  have hE := C114_sm2 checked sha512 ctr hctr
  have hD : priv.D • G ≠ 0 := by
    rw [Ne, good_sm2.smul_eq_zero_iff (good_sm2.G_ne_zero hG)]; exact hp.2.1
  exact ⟨fun fuel rand r s h => C38_sign_verify _ hE H G hG priv hp fuel rand id msg r s h,
    fun r s => C39_verify_iff _ hE H G hG _ hD priv.pub hp.1 hp.2.2 id msg r s⟩

/-- The hypotheses can be met: the key with `D = 2`. -/
example (checked : Bool) : ∃ (G : SM2.Point) (priv : ECPriv) (ctr : Bytes → Nat → Nat → Bytes),
    xy G = (Curves.sm2.Gx, Curves.sm2.Gy) ∧ SM2Pair G priv ∧ (∀ key off len, (ctr key off len).length = len) ∧
    (portableSM2 checked (fun b => beFix 64 (natOfBytes b)) ctr).Lawful := by
  obtain ⟨G, hG⟩ := good_sm2.exists_G
  have hl : ∀ key off len, ((fun (key : Bytes) (off len : Nat) => beFix len (natOfBytes key + off)) key off len).length = len :=
    fun _ _ _ => beFix_length' _ _
  exact ⟨G, priv2, _, hG, priv2_pair G hG, hl, C114_sm2 checked _ _ hl⟩

/-- Doubling the base point of the SM2 curve gives the Jacobian coordinates of another point. -/
example : (Generic.doubleJacobian Curves.sm2.P ⟨Curves.sm2.Gx, Curves.sm2.Gy, 1⟩).z ≠ 0 := by decide +kernel

/-- An unreduced pair is accepted by the older releases and refused by the newer ones. -/
example : Generic.isOnCurve false Curves.sm2 (Curves.sm2.Gx - Curves.sm2.P) Curves.sm2.Gy = true ∧
    Generic.isOnCurve true Curves.sm2 (Curves.sm2.Gx - Curves.sm2.P) Curves.sm2.Gy = false := by decide +kernel

/-- **C114** Two implementations of the curve methods that meet the contract make the same signature from the same
random bytes. -/
theorem C114_same_signature (E E' : SM2.Ext) (hE : E.Lawful) (hE' : E'.Lawful) (hs : E.sha512 = E'.sha512)
    (hc : E.ctr = E'.ctr) (H : Bytes → Bytes) (fuel : Nat) (rand : Bytes) (priv : ECPriv) (id msg : Bytes) :
    SM2.sign E H fuel rand priv id msg = SM2.sign E' H fuel rand priv id msg := by
  have hinv : ∀ {E : SM2.Ext}, E.Lawful → ∀ k, SM2.invOf E Curves.sm2.N k % Curves.sm2.N =
      SM2.fermatInverse k Curves.sm2.N % Curves.sm2.N := by
    intro E hE k
    unfold SM2.invOf
    cases h : E.inverse with
    | none => rfl
    | some f =>
      have hf := SM2.fermatInverse_spec SM2.N_prime SM2.two_lt_N k
      dsimp only
      by_cases h0 : k % Curves.sm2.N = 0
      · rw [hE.inverse' f h k h0]; exact (hf.2 h0).symm
      · have h1 := hE.inverse f h k
        rw [if_neg h0] at h1
        have h2 := hf.1 h0
        have : Nat.Coprime Curves.sm2.N k :=
          (Nat.Prime.coprime_iff_not_dvd SM2.N_prime).2 fun hd => h0 (Nat.mod_eq_zero_of_dvd hd)
        exact Nat.ModEq.cancel_left_of_coprime this (h1.trans h2.symm)
  have htry : ∀ D e k, SM2.signTry E Curves.sm2.N D e k = SM2.signTry E' Curves.sm2.N D e k := by
    intro D e k
    obtain ⟨G, hG⟩ := good_sm2.exists_G
    have := good_sm2.fact
    have hb : E.ops.baseMult k = E'.ops.baseMult k := (hE.base G hG k).trans (hE'.base G hG k).symm
    have hi : ∀ s : Int, s * (SM2.invOf E Curves.sm2.N (D + 1) : Nat) % (Curves.sm2.N : Int) =
        s * (SM2.invOf E' Curves.sm2.N (D + 1) : Nat) % (Curves.sm2.N : Int) := by
      intro s
      have h : ((SM2.invOf E Curves.sm2.N (D + 1) : Nat) : Int) ≡ (SM2.invOf E' Curves.sm2.N (D + 1) : Nat)
          [ZMOD Curves.sm2.N] := by
        rw [Int.natCast_modEq_iff]
        exact (hinv hE (D + 1)).trans (hinv hE' (D + 1)).symm
      exact Int.ModEq.mul_left s h
    unfold SM2.signTry
    simp only [hb, hi]
  have hloop : ∀ D e l, SM2.signLoop E Curves.sm2 D e l = SM2.signLoop E' Curves.sm2 D e l := by
    intro D e l
    induction l with
    | nil => rfl
    | cons b bs ih => simp only [SM2.signLoop, htry, ih]
  unfold SM2.sign
  by_cases hcv : priv.pub.curve = Curves.sm2
  · simp only [hcv, hloop, hs, SM2.nonceReads, hc]
  · have : SM2.getZ H msg priv.pub id = .err "the curve type is not SM2Curve" := by
      unfold SM2.getZ; rw [if_pos hcv]
    simp only [this]

/-- **C114** and accept the same signatures for every public key on the curve. -/
theorem C114_same_verdict (E E' : SM2.Ext) (hE : E.Lawful) (hE' : E'.Lawful) (H : Bytes → Bytes) (P : SM2.Point)
    (hP : P ≠ 0) (pub : ECPub) (hc : pub.curve = Curves.sm2) (hpub : (pub.x, pub.y) = xy P) (id msg : Bytes)
    (r s : Int) : SM2.verify E H pub id msg r s = SM2.verify E' H pub id msg r s := by
  obtain ⟨G, hG⟩ := good_sm2.exists_G
  rw [Bool.eq_iff_iff, C39_verify_iff E hE H G hG P hP pub hc hpub, C39_verify_iff E' hE' H G hG P hP pub hc hpub]

/-- The portable code and the reference implementation with the optional methods are such a pair. -/
example : (portableSM2 false refSM2opt.sha512 refSM2opt.ctr).Lawful ∧ refSM2opt.Lawful :=
  ⟨C114_sm2 _ _ _ refSM2opt_lawful.ctr_length, refSM2opt_lawful⟩

/-- Package vrf on a platform without assembly: the curves P-384, P-521 and SM2 have the methods of
`elliptic.CurveParams`, the others have the methods that `E` gives. -/
def portableVRF (checked : Bool) (E : VRF.Ext) : VRF.Ext :=
  { E with
    ops := fun c => if c ∈ [Curves.p384, Curves.p521, Curves.sm2] then Generic.ops c else E.ops c
    isOnCurve := fun c x y =>
      if c ∈ [Curves.p384, Curves.p521, Curves.sm2] then Generic.isOnCurve checked c x y else E.isOnCurve c x y }

/-- **C114** For the VRF theorems nothing is left to assume of the curves P-384, P-521 and SM2: it is enough that the
methods of P-224, P-256 and secp256k1 compute in the group. -/
theorem C114_vrf (checked : Bool) (E : VRF.Ext) (hk : E.k1name = "" ∨ E.k1name = "secp256k1")
    (hsize : ∀ a m, (E.extHash a m).length = VRF.size a)
    (hops : ∀ c ∈ [Curves.p224, Curves.p256, Curves.secp256k1 E.k1name],
      LawfulBase c (curveA E.k1name c) (E.ops c).baseMult ∧
      (∀ [Fact c.P.Prime] (P : Pt c (curveA E.k1name c)) (x y k : Nat), P ≠ 0 →
        (x % c.P, y % c.P) = xy P → (E.ops c).mult (x, y) k = xy (k • P)) ∧
      (∀ [Fact c.P.Prime] (P Q : Pt c (curveA E.k1name c)), (E.ops c).add (xy P) (xy Q) = xy (P + Q)) ∧
      ∀ x y, x < c.P → y < c.P → (E.isOnCurve c x y = true ↔ OnCurve c (curveA E.k1name c) x y)) :
    (portableVRF checked E).Lawful := by
  have key : ∀ c ∈ Curves.all E.k1name,
      LawfulBase c (curveA E.k1name c) ((portableVRF checked E).ops c).baseMult ∧
      (∀ [Fact c.P.Prime] (P : Pt c (curveA E.k1name c)) (x y k : Nat), P ≠ 0 →
        (x % c.P, y % c.P) = xy P → ((portableVRF checked E).ops c).mult (x, y) k = xy (k • P)) ∧
      (∀ [Fact c.P.Prime] (P Q : Pt c (curveA E.k1name c)),
        ((portableVRF checked E).ops c).add (xy P) (xy Q) = xy (P + Q)) ∧
      ∀ x y, x < c.P → y < c.P →
        ((portableVRF checked E).isOnCurve c x y = true ↔ OnCurve c (curveA E.k1name c) x y) := by
    intro c hc
    by_cases hm : c ∈ [Curves.p384, Curves.p521, Curves.sm2]
    · have hm3 : c ∈ minus3Curves := by
        simp only [minus3Curves, List.mem_cons, List.not_mem_nil, or_false] at hm ⊢
        tauto
      have ha : curveA E.k1name c = -3 := by
        simp only [List.mem_cons, List.not_mem_nil, or_false] at hm
        unfold curveA
        rcases hk with h | h <;> rw [h] <;> rcases hm with rfl | rfl | rfl <;> decide
      have hl := C114_contract c hm3
      have e1 : (portableVRF checked E).ops c = Generic.ops c := if_pos hm
      have e2 : ∀ x y : Nat, (portableVRF checked E).isOnCurve c x y = Generic.isOnCurve checked c x y :=
        fun x y => if_pos hm
      rw [ha, e1]
      refine ⟨hl.base, ?_, hl.add, ?_⟩
      · intro inst P x y k hP he
        have h1 := congrArg Prod.fst he
        have h2 := congrArg Prod.snd he
        have h := Generic.scalarMult_eq (minus3_good hm3).ok (x := x) (y := y) hP (by rw [← h1]; rfl)
          (by rw [← h2]; rfl) (bytesOfNat k)
        rw [natOfBytes_bytesOfNat] at h
        show ((Generic.scalarMult c (x, y) (bytesOfNat k)).1.toNat, _) = _
        rw [h]; rfl
      · intro x y hx hy
        rw [e2, C114_onCurve]
        unfold OnCurve
        rw [Int.dvd_iff_emod_eq_zero]
        have : (y : Int) ^ 2 - ((x : Int) ^ 3 - 3 * x + c.B) = (y : Int) ^ 2 - ((x : Int) ^ 3 + -3 * x + c.B) := by
          ring
        rw [this]
        exact ⟨And.left, fun h => ⟨h, fun _ => by omega⟩⟩
    · have e1 : (portableVRF checked E).ops c = E.ops c := if_neg hm
      have e2 : (portableVRF checked E).isOnCurve c = E.isOnCurve c := by
        funext x y; exact if_neg hm
      rw [e1, e2]
      refine hops c ?_
      simp only [Curves.all, List.mem_cons, List.not_mem_nil, or_false] at hc hm ⊢
      tauto
  exact ⟨hk, hsize, fun c hc => (key c hc).1, fun c hc => (key c hc).2.1, fun c hc => (key c hc).2.2.1,
    fun c hc => (key c hc).2.2.2⟩

/-- The hypotheses hold of every implementation that meets the contract. -/
example (checked : Bool) (E : VRF.Ext) (hE : E.Lawful) : (portableVRF checked E).Lawful :=
  C114_vrf checked E hE.k1name hE.size fun c hc => by
    have hc' : c ∈ Curves.all E.k1name := by
      simp only [Curves.all, List.mem_cons, List.not_mem_nil, or_false] at hc ⊢
      tauto
    exact ⟨hE.base c hc', hE.mult c hc', hE.add c hc', hE.onCurve c hc'⟩

end Verif.Props
