import Verif.Props.P256Curve
import Verif.Props.SM2Enc
import Verif.Props.VRF
import Verif.Model.VRFAmd64
import Verif.Spec.P256Mult
import Verif.Spec.TakenForZero
/-!
# Lemmas for C120: the functions that use the curve methods, on amd64
-/
namespace Verif.Props
open Verif Verif.Spec Verif.Spec.P256

/-- The SM2 field prime. -/
local notation "p" => Curves.sm2.P
/-- The order of the SM2 group. -/
local notation "n" => Curves.sm2.N

/-- `ScalarMult` of amd64 on a pair that satisfies the equation of the curve. -/
theorem amd64_mult {x y k : Nat} (hon : OnCurve Curves.sm2 (-3) x y) (he : ExactMult x y (bytesOfNat k)) :
    ∃ P : SM2.Point, P ≠ 0 ∧ (x % p, y % p) = xy P ∧
      X64.P256.scalarMult x y (bytesOfNat k) = if k % n = n - 6 then (0, 0) else xy (k • P) := by
  have hg := good_sm2
  have hxy : xy (Affine.ofXY hg.ok hon) = (x % p, y % p) := by
    unfold Affine.ofXY
    rw [Affine.xy_some, ZMod.val_natCast, ZMod.val_natCast]
  refine ⟨Affine.ofXY hg.ok hon, Affine.ofXY_ne_zero hg.ok hon, hxy.symm, ?_⟩
  have h := C57_scalarMult_partial _ x y hxy (bytesOfNat k) he
  rwa [natOfBytes_bytesOfNat] at h

theorem amd64Scalar_of_ne {k : Nat} (hlt : k < n) (h : k ≠ n - 6) : amd64Scalar k = k := by
  unfold amd64Scalar
  rw [Nat.mod_eq_of_lt hlt, if_neg h]

theorem mod_two_lt {a N : Nat} (hN : 2 < N) : a % (N - 1 - 1) + 1 < N := by
  have : a % (N - 1 - 1) < N - 1 - 1 := Nat.mod_lt _ (by omega)
  omega

theorem amd64_mult_eq {x y k : Nat} (hon : OnCurve Curves.sm2 (-3) x y) (he : ExactMult x y (bytesOfNat k))
    {mult : Nat × Nat → Nat → Nat × Nat}
    (hm : ∀ (P : SM2.Point) (j : Nat), P ≠ 0 → (x % p, y % p) = xy P → mult (x, y) j = xy (j • P)) :
    X64.P256.scalarMult x y (bytesOfNat k) = mult (x, y) (amd64Scalar k) := by
  obtain ⟨P, hP, hxy, h⟩ := amd64_mult hon he
  rw [h, hm P _ hP hxy]
  unfold amd64Scalar
  split_ifs
  · rw [zero_smul]; rfl
  · rfl

theorem amd64_base_def (E : SM2.Ext) (k : Nat) :
    (SM2.amd64 E).ops.baseMult k = X64.P256.scalarBaseMult (bytesOfNat k) := rfl

theorem amd64_mult_def (E : SM2.Ext) (x y k : Nat) :
    (SM2.amd64 E).ops.mult (x, y) k = X64.P256.scalarMult x y (bytesOfNat k) := rfl

section
variable (ops : CurveOps) (f : Nat → Nat → Bool) (i : Option (Nat → Nat))
  (c : Option (Nat × Nat → Nat → Nat → Nat × Nat)) (h : Bytes → Bytes) (s : Bytes → Nat → Nat → Bytes)

theorem isOnCurve_mk : (SM2.Ext.mk ops f i c h s).isOnCurve = f := rfl
theorem sha512_mk : (SM2.Ext.mk ops f i c h s).sha512 = h := rfl
theorem ctr_mk : (SM2.Ext.mk ops f i c h s).ctr = s := rfl
end

theorem amd64_isOnCurve (E : SM2.Ext) : (SM2.amd64 E).isOnCurve = E.isOnCurve := isOnCurve_mk ..
theorem amd64_sha512 (E : SM2.Ext) : (SM2.amd64 E).sha512 = E.sha512 := sha512_mk ..
theorem amd64_ctr (E : SM2.Ext) : (SM2.amd64 E).ctr = E.ctr := ctr_mk ..

theorem n6_sha512 (E : SM2.Ext) : (sm2N6Zero E).sha512 = E.sha512 := sha512_mk ..
theorem n6_ctr (E : SM2.Ext) : (sm2N6Zero E).ctr = E.ctr := ctr_mk ..
theorem n6_base (E : SM2.Ext) (k : Nat) : (sm2N6Zero E).ops.baseMult k = E.ops.baseMult k := rfl
theorem n6_mult (E : SM2.Ext) (P : Nat × Nat) (k : Nat) :
    (sm2N6Zero E).ops.mult P k = E.ops.mult P (amd64Scalar k) := rfl

theorem n6_encNonce (E : SM2.Ext) : sm2EncNonce (sm2N6Zero E) = sm2EncNonce E := by
  funext pub rand m i
  unfold sm2EncNonce sm2Nonce
  rw [n6_sha512, n6_ctr]

/-! ## Decryption -/

/-- `Decrypt` uses the curve methods for one multiplication. -/
theorem decrypt_congr {E E' : SM2.Ext} (hc : E'.isOnCurve = E.isOnCurve) (priv : ECPriv) (d : Nat)
    (data spare : Bytes)
    (hm : E.isOnCurve (natOfBytes ((data ++ spare).take 32)) (natOfBytes (((data ++ spare).drop 32).take 32)) = true →
      E'.ops.mult (natOfBytes ((data ++ spare).take 32), natOfBytes (((data ++ spare).drop 32).take 32)) priv.D =
      E.ops.mult (natOfBytes ((data ++ spare).take 32), natOfBytes (((data ++ spare).drop 32).take 32)) d) :
    SM2.decrypt E' priv data spare = SM2.decrypt E { priv with D := d } data spare := by
  unfold SM2.decrypt
  rw [hc]
  cases hon : E.isOnCurve (natOfBytes ((data ++ spare).take 32)) (natOfBytes (((data ++ spare).drop 32).take 32)) with
  | true => simp only [hm hon, hon]
  | false => simp only [hon, if_true]

/-! ## Encryption -/

theorem encryptLoop_congr {E E' : SM2.Ext} (pub : ECPub) (m : Bytes) : ∀ (l : List Bytes) (buf : Bytes),
    (∀ b ∈ l, E'.ops.baseMult (SM2.randFieldElement pub.curve b) = E.ops.baseMult (SM2.randFieldElement pub.curve b) ∧
      E'.ops.mult (pub.x, pub.y) (SM2.randFieldElement pub.curve b) =
        E.ops.mult (pub.x, pub.y) (SM2.randFieldElement pub.curve b)) →
    SM2.encryptLoop E' pub m l buf = SM2.encryptLoop E pub m l buf
  | [], _, _ => rfl
  | b :: bs, buf, hb => by
    obtain ⟨e1, e2⟩ := hb b List.mem_cons_self
    have ih := fun buf => encryptLoop_congr (E := E) (E' := E') pub m bs buf
      fun b hb' => hb b (List.mem_cons_of_mem _ hb')
    rw [SM2.encryptLoop, SM2.encryptLoop]
    simp only [e1, e2, ih]

theorem encrypt_congr {E E' : SM2.Ext} (hsha : E'.sha512 = E.sha512) (hctr : E'.ctr = E.ctr) (pub : ECPub)
    (fuel : Nat) (rand m : Bytes) (hm : m.length < 2 ^ 61)
    (h : ∀ i < fuel, E'.ops.baseMult (sm2EncNonce E pub rand m i) = E.ops.baseMult (sm2EncNonce E pub rand m i) ∧
      E'.ops.mult (pub.x, pub.y) (sm2EncNonce E pub rand m i) =
        E.ops.mult (pub.x, pub.y) (sm2EncNonce E pub rand m i)) :
    SM2.encrypt E' fuel rand pub m = SM2.encrypt E fuel rand pub m := by
  unfold SM2.encrypt
  split_ifs with hcv
  · rfl
  · rw [not_not] at hcv
    dsimp only
    split_ifs
    · rfl
    · unfold SM2.nonceReads
      rw [hsha, hctr]
      refine encryptLoop_congr _ _ _ _ fun b hb' => ?_
      obtain ⟨i, hi, rfl⟩ := List.mem_map.1 hb'
      have h := h i (List.mem_range.1 hi)
      have hk : SM2.randFieldElement pub.curve (E.ctr
          ((E.sha512 (bytesOfNat pub.x ++ rand.take (SM2.entropyLen pub.curve) ++ SM2.sm3Sum m)).take 32)
          (SM2.readLen pub.curve * i) (SM2.readLen pub.curve)) = sm2EncNonce E pub rand m i := by
        have h16 : SM2.entropyLen Curves.sm2 = 16 := by decide
        have h40 : SM2.readLen Curves.sm2 = 40 := by decide
        have hN : n - 1 - 1 = SM2.n - 2 := by decide +kernel
        rw [hcv, h16, h40, SM2.sm3Sum_spec m hm]
        unfold SM2.randFieldElement sm2EncNonce sm2Nonce
        rw [hN]
      rw [hk]
      exact h

theorem encNonce_lt (E : SM2.Ext) (pub : ECPub) (rand m : Bytes) (i : Nat) : sm2EncNonce E pub rand m i < n := by
  unfold sm2EncNonce sm2Nonce
  have hN : SM2.n - 2 = n - 1 - 1 := by decide +kernel
  rw [hN]
  exact mod_two_lt (by decide +kernel)

/-! ## The VRF -/

theorem hash_congr {E E' : VRF.Ext} (hh : E'.extHash = E.extHash) : E'.hash = E.hash := by
  funext a
  cases a <;> unfold VRF.Ext.hash <;> rw [hh]

theorem hashToCurve_congr {E E' : VRF.Ext} (hk : E'.k1name = E.k1name) (hh : E'.extHash = E.extHash)
    (a : Signature.HashAlg) (c : Curve) (m : Bytes) (draws : Nat → List Nat) :
    VRF.hashToCurve E' a c m draws = VRF.hashToCurve E a c m draws := by
  have : ∀ k i, VRF.hashToCurveFrom E' a c m draws k i = VRF.hashToCurveFrom E a c m draws k i := by
    intro k
    induction k with
    | zero => intro i; rfl
    | succ k ih =>
      intro i
      rw [VRF.hashToCurveFrom, VRF.hashToCurveFrom, ih, hk, hash_congr hh]
  exact this _ _

theorem hashToInt_congr {E E' : VRF.Ext} (hh : E'.extHash = E.extHash) (a : Signature.HashAlg) (c : Curve) (m : Bytes)
    (fuel : Nat) : VRF.hashToInt E' a c m fuel = VRF.hashToInt E a c m fuel := by
  have : ∀ k i, VRF.hashToIntFrom E' a c m k i = VRF.hashToIntFrom E a c m k i := by
    intro k
    induction k with
    | zero => intro i; rfl
    | succ k ih =>
      intro i
      rw [VRF.hashToIntFrom, VRF.hashToIntFrom, ih, hash_congr hh]
  exact this _ _

theorem getHash_congr {E E' : VRF.Ext} (hk : E'.k1name = E.k1name) (c : Curve) : VRF.getHash E' c = VRF.getHash E c := by
  unfold VRF.getHash; rw [hk]

theorem evaluate_congr {E E' : VRF.Ext} (hk : E'.k1name = E.k1name) (hh : E'.extHash = E.extHash)
    (a : Signature.HashAlg) (priv : ECPriv) (msg r : Bytes) (draws : Nat → List Nat) (fuel : Nat)
    (hb : (E'.ops priv.pub.curve).baseMult (natOfBytes r) = (E.ops priv.pub.curve).baseMult (natOfBytes r))
    (hm : ∀ pkb H, VRF.marshal priv.pub.curve (priv.pub.x, priv.pub.y) = .ok pkb →
      VRF.hashToCurve E a priv.pub.curve (pkb ++ msg) draws = some (some H) → priv.pub.curve.byteSize = VRF.size a →
      (E'.ops priv.pub.curve).mult H priv.D = (E.ops priv.pub.curve).mult H priv.D ∧
      (E'.ops priv.pub.curve).mult H (natOfBytes r) = (E.ops priv.pub.curve).mult H (natOfBytes r)) :
    VRF.evaluate E' a priv msg (.ok r) draws fuel = VRF.evaluate E a priv msg (.ok r) draws fuel := by
  unfold VRF.evaluate
  dsimp only
  split
  · rfl
  · rename_i hsz
    rw [not_not] at hsz
    cases hpk : VRF.marshal priv.pub.curve (priv.pub.x, priv.pub.y) with
    | err m => rfl
    | panic m => rfl
    | ok pkb =>
      dsimp only
      rw [hashToCurve_congr hk hh]
      cases hH : VRF.hashToCurve E a priv.pub.curve (pkb ++ msg) draws with
      | none => rfl
      | some o =>
        cases o with
        | none => rfl
        | some H =>
          obtain ⟨h1, h2⟩ := hm pkb H hpk hH hsz
          dsimp only
          unfold VRF.evalWith
          dsimp only
          rw [h1, h2, hb]
          unfold VRF.evalTail
          simp only [hashToInt_congr hh]

theorem unmarshal_congr {E E' : VRF.Ext} (ho : E'.isOnCurve = E.isOnCurve) (c : Curve) (data : Bytes) :
    VRF.unmarshal E' c data = VRF.unmarshal E c data := by
  unfold VRF.unmarshal; rw [ho]

theorem proofToHash_congr {E E' : VRF.Ext} (hk : E'.k1name = E.k1name) (hh : E'.extHash = E.extHash)
    (ho : E'.isOnCurve = E.isOnCurve)
    (a : Signature.HashAlg) (pk : ECPub) (msg proof : Bytes) (draws : Nat → List Nat) (fuel : Nat) {s t : Nat}
    (hs : s = natOfBytes (proof.take pk.curve.byteSize))
    (ht : t = natOfBytes ((proof.drop pk.curve.byteSize).take pk.curve.byteSize))
    (ha : (E'.ops pk.curve).add = (E.ops pk.curve).add)
    (hb : (E'.ops pk.curve).baseMult t = (E.ops pk.curve).baseMult t)
    (hpk : (E'.ops pk.curve).mult (pk.x, pk.y) s = (E.ops pk.curve).mult (pk.x, pk.y) s)
    (hU : ∀ U, VRF.unmarshal E pk.curve ((proof.drop (2 * pk.curve.byteSize)).take (2 * pk.curve.byteSize + 1)) = some U →
      (E'.ops pk.curve).mult U s = (E.ops pk.curve).mult U s)
    (hm : ∀ pkb H, VRF.marshal pk.curve (pk.x, pk.y) = .ok pkb →
      VRF.hashToCurve E a pk.curve (pkb ++ msg) draws = some (some H) → pk.curve.byteSize = VRF.size a →
      (E'.ops pk.curve).mult H t = (E.ops pk.curve).mult H t) :
    VRF.proofToHash E' a pk msg proof draws fuel = VRF.proofToHash E a pk msg proof draws fuel := by
  subst hs ht
  unfold VRF.proofToHash
  dsimp only
  split
  · rfl
  · rename_i hsz
    rw [not_not] at hsz
    split
    · rfl
    · rw [unmarshal_congr ho]
      cases hu : VRF.unmarshal E pk.curve
          ((proof.drop (2 * pk.curve.byteSize)).take (2 * pk.curve.byteSize + 1)) with
      | none => rfl
      | some U =>
        dsimp only
        cases hp : VRF.marshal pk.curve (pk.x, pk.y) with
        | err m => rfl
        | panic m => rfl
        | ok pkb =>
          dsimp only
          rw [hashToCurve_congr hk hh]
          cases hH : VRF.hashToCurve E a pk.curve (pkb ++ msg) draws with
          | none => rfl
          | some o =>
            cases o with
            | none => rfl
            | some H =>
              dsimp only
              unfold VRF.checkWith
              dsimp only
              rw [ha, hb, hpk, hU U hu, hm pkb H hp hH hsz]
              unfold VRF.checkTail
              simp only [hashToInt_congr hh, hash_congr hh]

section
variable (k : String) (f : Signature.HashAlg → Bytes → Bytes) (ops : Curve → CurveOps) (g : Curve → Nat → Nat → Bool)
theorem vrf_k1name_mk : (VRF.Ext.mk k f ops g).k1name = k := rfl
theorem vrf_extHash_mk : (VRF.Ext.mk k f ops g).extHash = f := rfl
theorem vrf_ops_mk : (VRF.Ext.mk k f ops g).ops = ops := rfl
theorem vrf_isOnCurve_mk : (VRF.Ext.mk k f ops g).isOnCurve = g := rfl
end

theorem vrf_amd64_k1name (E : VRF.Ext) : (VRF.amd64 E).k1name = E.k1name := vrf_k1name_mk ..
theorem vrf_amd64_extHash (E : VRF.Ext) : (VRF.amd64 E).extHash = E.extHash := vrf_extHash_mk ..
theorem vrf_amd64_isOnCurve (E : VRF.Ext) : (VRF.amd64 E).isOnCurve = E.isOnCurve := vrf_isOnCurve_mk ..

theorem vrf_amd64_ops (E : VRF.Ext) : (VRF.amd64 E).ops Curves.sm2 =
    { baseMult := fun k => X64.P256.scalarBaseMult (bytesOfNat k)
      mult := fun P k => X64.P256.scalarMult P.1 P.2 (bytesOfNat k)
      add := (E.ops Curves.sm2).add } := by
  unfold VRF.amd64
  rw [vrf_ops_mk, if_pos rfl]

theorem curveA_sm2 {k1name : String} (h : k1name = "" ∨ k1name = "secp256k1") : curveA k1name Curves.sm2 = -3 := by
  rcases h with h | h <;> rw [h] <;> rfl

theorem vrf_mult_law {E : VRF.Ext} (hE : E.Lawful) {x y : Nat} (P : SM2.Point) (j : Nat) (hP : P ≠ 0)
    (hxy : (x % p, y % p) = xy P) : (E.ops Curves.sm2).mult (x, y) j = xy (j • P) := by
  have h := hE.mult Curves.sm2 (by simp [Curves.all])
  rw [curveA_sm2 hE.k1name] at h
  exact h P x y j hP hxy

theorem vrf_amd64_mult {E : VRF.Ext} (hE : E.Lawful) {x y k : Nat} (hon : OnCurve Curves.sm2 (-3) x y)
    (he : ExactMult x y (bytesOfNat k)) :
    ((VRF.amd64 E).ops Curves.sm2).mult (x, y) k = (E.ops Curves.sm2).mult (x, y) (amd64Scalar k) := by
  rw [vrf_amd64_ops]
  exact amd64_mult_eq hon he fun P j hP hxy => vrf_mult_law hE P j hP hxy

theorem amd64Scalar_of_mod_ne {k : Nat} (h : k % n ≠ n - 6) : amd64Scalar k = k := by
  unfold amd64Scalar
  rw [if_neg h]

theorem vrf_amd64_base {E : VRF.Ext} (hE : E.Lawful) {k : Nat} (he : ExactBase (bytesOfNat k)) :
    ((VRF.amd64 E).ops Curves.sm2).baseMult k = (E.ops Curves.sm2).baseMult k := by
  obtain ⟨G, hG⟩ := good_sm2.exists_G
  have h := hE.base Curves.sm2 (by simp [Curves.all])
  rw [curveA_sm2 hE.k1name] at h
  rw [vrf_amd64_ops, h G hG k]
  have := C83_scalarBaseMult_partial G hG _ he
  rwa [natOfBytes_bytesOfNat] at this

theorem vrf_amd64_add (E : VRF.Ext) : ((VRF.amd64 E).ops Curves.sm2).add = (E.ops Curves.sm2).add := by
  rw [vrf_amd64_ops]

theorem vrf_n6_k1name (E : VRF.Ext) : (vrfN6Zero E).k1name = E.k1name := vrf_k1name_mk ..
theorem vrf_n6_extHash (E : VRF.Ext) : (vrfN6Zero E).extHash = E.extHash := vrf_extHash_mk ..
theorem vrf_n6_isOnCurve (E : VRF.Ext) : (vrfN6Zero E).isOnCurve = E.isOnCurve := vrf_isOnCurve_mk ..

theorem vrf_n6_ops (E : VRF.Ext) : (vrfN6Zero E).ops Curves.sm2 = n6Zero (E.ops Curves.sm2) := by
  unfold vrfN6Zero
  rw [vrf_ops_mk, if_pos rfl]

theorem vrf_n6_mult (E : VRF.Ext) (P : Nat × Nat) (k : Nat) :
    ((vrfN6Zero E).ops Curves.sm2).mult P k = (E.ops Curves.sm2).mult P (amd64Scalar k) := by
  rw [vrf_n6_ops]; rfl

theorem vrf_n6_base (E : VRF.Ext) (k : Nat) :
    ((vrfN6Zero E).ops Curves.sm2).baseMult k = (E.ops Curves.sm2).baseMult k := by
  rw [vrf_n6_ops]; rfl

theorem vrf_n6_add (E : VRF.Ext) : ((vrfN6Zero E).ops Curves.sm2).add = (E.ops Curves.sm2).add := by
  rw [vrf_n6_ops]; rfl

theorem vrf_hash_onCurve {E : VRF.Ext} (hE : E.Lawful) {a : Signature.HashAlg} (ha : Curves.sm2.byteSize = VRF.size a)
    {x y : Nat} {pkb msg : Bytes} (hm : msg.length < 2 ^ 59) {draws : Nat → List Nat} {H : Nat × Nat}
    (hp : VRF.marshal Curves.sm2 (x, y) = .ok pkb)
    (hH : VRF.hashToCurve E a Curves.sm2 (pkb ++ msg) draws = some (some H)) :
    VRF.IsHashPoint (E.hash a) Curves.sm2 (-3) (VRF.enc Curves.sm2 (x, y) ++ msg) H.1 H.2 := by
  have hv : VRF.FitHash E.k1name Curves.sm2 a := ⟨by simp [Curves.all], ha⟩
  unfold VRF.marshal at hp
  split at hp
  · cases hp
    have h := (VRF.hashToCurve_some hE hv (VRF.input_short hv (x, y) msg hm) hH).1
    rwa [curveA_sm2 hE.k1name] at h
  · cases hp

theorem getHash_sm2 (E : VRF.Ext) : VRF.getHash E Curves.sm2 = some .sm3 := by
  unfold VRF.getHash
  rw [if_neg (by decide), if_pos (by decide), if_pos (by decide)]

/-! ## Concrete cases -/

/-- The key pair with the private key `n - 6`. -/
def keyN6 : ECPriv :=
  ⟨n - 6, Curves.sm2, 0x927afb57d93483bbb17c93e71f22a3105ff8856a66016892c8b1a1a3c4b0d30,
    0xeaf394e44b2e038153e3f109140d99ba7e520e0e7aa5f9b32a8defcffff7709c⟩

theorem keyN6_pair (G : SM2.Point) (hG : xy G = (Curves.sm2.Gx, Curves.sm2.Gy)) : SM2Pair G keyN6 := by
  refine ⟨rfl, by decide +kernel, ?_⟩
  rw [← Verif.Affine.smul_eq good_sm2.ok _ Curves.sm2_aN, hG]
  decide +kernel

end Verif.Props
