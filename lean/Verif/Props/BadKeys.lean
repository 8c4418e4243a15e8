import Verif.Props.Generic
import Verif.Props.Signature
import Verif.Props.EC
import Verif.Props.SM2Enc
import Verif.Lemmas.SM2Heap
/-!
# C140: what parsed keys that are no points of the curve are good for

`DeserializePublicKey` takes uncompressed points without a check (C12). On platforms without assembly (Model/Generic) the
methods of the curve do not use its constant `B`, so that a key off the curve is a key on another curve. Here: the
consequences for SM2 signatures and encryption. (Releases of Go from 1.19 on panic when they multiply a point off the curve,
but not for `(0, 0)`; Model/Generic describes the releases that the repository was made for.)
-/
namespace Verif.Props
open Verif.Keypair Verif.Signature Verif.Spec

/-- The curve with another constant `B`. -/
abbrev withB (c : Curve) (B : Nat) : Curve := { c with B := B }

/-- **C140** Multiplication with a key off the curve is multiplication on the curve with another constant, `B`, through
the key. -/
theorem C140_other_curve (B x y k : Nat) (hx : x < Curves.sm2.P) (hy : y < Curves.sm2.P)
    (hon : OnCurve (withB Curves.sm2 B) (-3) x y) (hok : Affine.Ok (withB Curves.sm2 B) (-3))
    [Fact (withB Curves.sm2 B).P.Prime] :
    (Generic.ops Curves.sm2).mult (x, y) k = xy (k • Affine.ofXY hok hon) := by
  have h := Generic.scalarMult_xy hok (Affine.ofXY hok hon) (bytesOfNat k)
  rw [Affine.xy_ofXY hok hon hx hy, natOfBytes_bytesOfNat] at h
  have e : (Generic.ops Curves.sm2).mult (x, y) k =
      ((Generic.scalarMult (withB Curves.sm2 B) (x, y) (bytesOfNat k)).1.toNat,
        (Generic.scalarMult (withB Curves.sm2 B) (x, y) (bytesOfNat k)).2.toNat) := rfl
  rw [e, h]
  simp

/-- A point with y-coordinate 0 is its own negative. -/
theorem two_torsion {c : Curve} {a : Int} [Fact c.P.Prime] (hok : Affine.Ok c a) {x : Nat} (hon : OnCurve c a x 0)
    (k : Nat) : k • Affine.ofXY hok hon = 0 ∨ k • Affine.ofXY hok hon = Affine.ofXY hok hon := by
  have h2 : Affine.ofXY hok hon + Affine.ofXY hok hon = 0 := by
    unfold Affine.ofXY
    rw [WeierstrassCurve.Affine.Point.add_self_of_Y_eq]
    simp [WeierstrassCurve.Affine.negY, W]
  rcases Nat.even_or_odd' k with ⟨m, rfl | rfl⟩
  · left; rw [mul_nsmul, two_nsmul, h2, nsmul_zero]
  · right; rw [add_nsmul, mul_nsmul, two_nsmul, h2, nsmul_zero, zero_add, one_nsmul]

theorem putRight_length {d : Bytes} {i n : Nat} {d' : Bytes} (hi : i ≤ d.length) (hd : SM2.putRight d i n = .ok d') :
    d'.length = d.length := by
  unfold SM2.putRight at hd
  split_ifs at hd with hc
  rw [← Res.ok.inj hd]
  exact goCopyAt_len _ _ _ (by omega)

theorem putTwo_length {d : Bytes} {i j m n : Nat} {d' : Bytes} (hi : i ≤ d.length) (hj : j ≤ d.length)
    (h : ((SM2.putRight d i m).bind fun b => SM2.putRight b j n) = .ok d') : d'.length = d.length := by
  cases h1 : SM2.putRight d i m with
  | err m => rw [h1] at h; cases h
  | panic m => rw [h1] at h; cases h
  | ok b =>
    rw [h1] at h
    have l1 := putRight_length hi h1
    rw [putRight_length (by omega) h, l1]

/-- What `Encrypt` returns: behind 96 bytes, the message masked with the kdf of a multiple of the public key. -/
theorem encryptLoop_mask (E : SM2.Ext) (pub : ECPub) (data : Bytes) (reads : List Bytes) (buf ct : Bytes)
    (hb : buf.length = 96 + data.length) (h : SM2.encryptLoop E pub data reads buf = some (.ok ct)) :
    ∃ k z t, SM2.pointBuf (E.ops.mult (pub.x, pub.y) k).1 (E.ops.mult (pub.x, pub.y) k).2 = .ok z ∧
      SM2.sm3kdf z data.length = some t ∧ ct.drop 96 = List.zipWith (· ^^^ ·) data t := by
  induction reads generalizing buf with
  | nil => simp [SM2.encryptLoop] at h
  | cons b bs ih =>
    rw [SM2.encryptLoop] at h
    simp only at h
    cases hp : (SM2.putRight buf 32 (E.ops.baseMult (SM2.randFieldElement pub.curve b)).1).bind fun buf =>
        SM2.putRight buf 64 (E.ops.baseMult (SM2.randFieldElement pub.curve b)).2 with
    | err m => rw [hp] at h; cases h
    | panic m => rw [hp] at h; cases h
    | ok buf' =>
      have hl : buf'.length = 96 + data.length := (putTwo_length (by omega) (by omega) hp).trans hb
      rw [hp] at h
      simp only at h
      by_cases h0 : pub.x = 0 ∧ pub.y = 0
      · rw [if_pos h0] at h; cases h
      rw [if_neg h0] at h
      cases hz : SM2.pointBuf (E.ops.mult (pub.x, pub.y) (SM2.randFieldElement pub.curve b)).1
          (E.ops.mult (pub.x, pub.y) (SM2.randFieldElement pub.curve b)).2 with
      | err m => rw [hz] at h; cases h
      | panic m => rw [hz] at h; cases h
      | ok z =>
        rw [hz] at h
        simp only at h
        cases ht : SM2.sm3kdf z data.length with
        | none => rw [ht] at h; exact ih buf' hl h
        | some t =>
          rw [ht] at h
          refine ⟨_, z, t, hz, ht, ?_⟩
          have hzl : z.length = 64 := (putTwo_length (by simp) (by simp) hz).trans (by simp)
          have htl : t.length = data.length := by
            rw [SM2.sm3kdf_eq z (by omega)] at ht
            split_ifs at ht
            rw [← Option.some.inj ht, SM2.kdf_length]
          simp only at h
          cases hm : SM2.macOf (E.ops.mult (pub.x, pub.y) (SM2.randFieldElement pub.curve b)).1
              (E.ops.mult (pub.x, pub.y) (SM2.randFieldElement pub.curve b)).2 data with
          | err m => rw [hm] at h; cases h
          | panic m => rw [hm] at h; cases h
          | ok c3 =>
            rw [hm] at h
            have e := Res.ok.inj (Option.some.inj h)
            have l3 : (SM3.goCopyAt buf' 64 c3).1.length = 96 + data.length := by
              rw [goCopyAt_len _ _ _ (by omega), hl]
            rw [← e, goCopyAt_splice, l3, List.take_of_length_le (by simp), splice, List.append_assoc,
              List.drop_left' (by simp [l3]), List.drop_eq_nil_of_le (by simp; omega), List.append_nil]

theorem xor_twice (a b : Bytes) (h : a.length = b.length) :
    SM2.xor (List.zipWith (· ^^^ ·) a b) b = a := by
  induction a generalizing b with
  | nil => rfl
  | cons x a ih =>
    cases b with
    | nil => cases h
    | cons y b =>
      simp only [SM2.xor, List.zipWith_cons_cons, List.cons.injEq]
      exact ⟨by rw [BitVec.xor_assoc, BitVec.xor_self, BitVec.xor_zero], ih b (Nat.succ.inj h)⟩

/-- Uncompressed SM2 keys are parsed without a check. -/
theorem parse_raw (K : Keypair.Ext) (xb yb : Bytes) (hx : xb.length = 32) (hy : yb.length = 32) (draws : List Nat) :
    deserializePublicKey K (0x13 :: 20 :: 4 :: (xb ++ yb)) draws =
      some (.ok (.ec .sm2 ⟨Curves.sm2, natOfBytes xb, natOfBytes yb⟩)) := by
  have hb : Curves.sm2.byteSize = 32 := by decide +kernel
  have hd := Verif.EC.decode_uncompressed K.k1name Curves.sm2 xb yb [] (by rw [hx, hb]) (by rw [hy, hb]) draws
  rw [List.append_nil] at hd
  have hcv : getCurve K 20 = .ok Curves.sm2 := by rfl
  unfold deserializePublicKey
  rw [if_neg (by simp; omega)]
  simp only [List.getD_cons_zero, List.getD_cons_succ, List.drop_succ_cons, List.drop_zero, hcv, hd]
  rfl

/-- If a multiplication with the key `(x, 0)` gives `(0, 0)` or the key, there are only two masks. -/
theorem encrypt_masks (E : SM2.Ext) (x : Nat) (hx : x < Curves.sm2.P)
    (hm : ∀ k, E.ops.mult (x, 0) k = (0, 0) ∨ E.ops.mult (x, 0) k = (x, 0)) (fuel : Nat) (rand data ct : Bytes)
    (h : SM2.encrypt E fuel rand ⟨Curves.sm2, x, 0⟩ data = some (.ok ct)) :
    data = SM2.xor (ct.drop 96) (SM2.kdf (zeros 64) data.length) ∨
      data = SM2.xor (ct.drop 96) (SM2.kdf (beFix 32 x ++ zeros 32) data.length) := by
  unfold SM2.encrypt at h
  rw [if_neg (by simp)] at h
  simp only at h
  split_ifs at h with hr
  · cases Option.some.inj h
  obtain ⟨k, z, t, hz, ht, he⟩ := encryptLoop_mask _ _ _ _ _ _ (by simp) h
  have hb32 : byteLen x ≤ 32 := by
    rw [byteLen_le_iff]; exact lt_trans hx (by decide +kernel)
  have h0 : byteLen 0 ≤ 32 := by decide
  have key : (z = zeros 64 ∨ z = beFix 32 x ++ zeros 32) ∧ z.length = 64 := by
    rcases hm k with e | e
    · simp only [e] at hz
      rw [SM2.pointBuf_eq h0 h0] at hz
      have := Res.ok.inj hz
      exact ⟨.inl (by rw [← this]; decide), by rw [← this]; simp⟩
    · simp only [e] at hz
      rw [SM2.pointBuf_eq hb32 h0] at hz
      have := Res.ok.inj hz
      exact ⟨.inr (by rw [← this]; congr 1), by rw [← this]; simp⟩
  have htk : t = SM2.kdf z data.length := by
    rw [SM2.sm3kdf_eq z (by omega)] at ht
    split_ifs at ht
    exact (Option.some.inj ht).symm
  have hd : data = SM2.xor (ct.drop 96) (SM2.kdf z data.length) := by
    rw [he, htk, xor_twice _ _ (SM2.kdf_length _ _).symm]
  rcases key.1 with e | e
  · left; rw [← e]; exact hd
  · right; rw [← e]; exact hd

/-- The bytes of the key `(x, 0)` are parsed. -/
theorem parse_flat (K : Keypair.Ext) (x : Nat) (hx : x < Curves.sm2.P) (draws : List Nat) :
    deserializePublicKey K (0x13 :: 20 :: 4 :: (beFix 32 x ++ zeros 32)) draws =
      some (.ok (.ec .sm2 ⟨Curves.sm2, x, 0⟩)) := by
  rw [parse_raw K _ _ (beFix_length _ _) (by simp [zeros]) draws,
    natOfBytes_beFix_of_lt (lt_trans hx (by decide +kernel)), show natOfBytes (zeros 32) = 0 by decide]

/-- **C140** is false for SM2 encryption: everyone can read what is encrypted for a key `(x, 0)`, without a private key and
whatever random numbers were used. The bytes of the key are parsed, and the mask is one of two that everyone can compute.
(`hok`: the curve through the key has no singular point; this excludes a few `x`.) -/
theorem C140_encrypt_fails (K : Keypair.Ext) (checked : Bool) (sha512 : Bytes → Bytes) (ctr : Bytes → Nat → Nat → Bytes)
    (B x : Nat) (hx : x < Curves.sm2.P) (hon : OnCurve (withB Curves.sm2 B) (-3) x 0)
    (hok : Affine.Ok (withB Curves.sm2 B) (-3)) (fuel : Nat) (rand data ct : Bytes)
    (h : SM2.encrypt (portableSM2 checked sha512 ctr) fuel rand ⟨Curves.sm2, x, 0⟩ data = some (.ok ct)) :
    (∀ draws, deserializePublicKey K (0x13 :: 20 :: 4 :: (beFix 32 x ++ zeros 32)) draws =
      some (.ok (.ec .sm2 ⟨Curves.sm2, x, 0⟩))) ∧
    (data = SM2.xor (ct.drop 96) (SM2.kdf (zeros 64) data.length) ∨
      data = SM2.xor (ct.drop 96) (SM2.kdf (beFix 32 x ++ zeros 32) data.length)) := by
  have inst : Fact (withB Curves.sm2 B).P.Prime := good_sm2.fact
  refine ⟨parse_flat K x hx, encrypt_masks _ x hx (fun k => ?_) fuel rand data ct h⟩
  have hm : (portableSM2 checked sha512 ctr).ops.mult (x, 0) k = xy (k • Affine.ofXY hok hon) :=
    C140_other_curve B x 0 k hx good_sm2.fact.out.pos hon hok
  rw [hm]
  rcases two_torsion hok hon k with e | e
  · left; rw [e, Affine.xy_zero]
  · right; rw [e, Affine.xy_ofXY hok hon hx good_sm2.fact.out.pos]

/-- Multiples of the key `(0, 0)` are `(0, 0)`. -/
theorem portable_zero (k : Nat) : (Generic.ops Curves.sm2).mult (0, 0) k = (0, 0) := by
  have := good_sm2.fact
  have h := (C114_contract Curves.sm2 (by simp [minus3Curves])).mult (0 : SM2.Point) k
  rwa [nsmul_zero, Affine.xy_zero] at h

/-- With the key `(0, 0)` the sum of a verification is the multiple of the base point alone. -/
theorem portable_combine (checked : Bool) (sha512 : Bytes → Bytes) (ctr : Bytes → Nat → Nat → Bytes) (G : SM2.Point)
    (hG : xy G = (Curves.sm2.Gx, Curves.sm2.Gy)) (s t : Nat) :
    SM2.combine (portableSM2 checked sha512 ctr) ⟨Curves.sm2, 0, 0⟩ s t = xy (s • G) := by
  have := good_sm2.fact
  have hl := C114_contract Curves.sm2 (by simp [minus3Curves])
  show (Generic.ops Curves.sm2).add ((Generic.ops Curves.sm2).baseMult s) ((Generic.ops Curves.sm2).mult (0, 0) t) = _
  have ha := hl.add (s • G) 0
  rw [portable_zero, hl.base G hG s]
  rwa [Affine.xy_zero, add_zero] at ha

theorem verify_zero_key (checked : Bool) (sha512 : Bytes → Bytes) (ctr : Bytes → Nat → Nat → Bytes) (G : SM2.Point)
    (hG : xy G = (Curves.sm2.Gx, Curves.sm2.Gy)) (H : Bytes → Bytes) (msg id mz : Bytes)
    (hz : SM2.getZ H msg ⟨Curves.sm2, 0, 0⟩ id = .ok mz) (r s : Nat) (hs : 0 < s) (hsn : s < SM2.n)
    (hr : r = ((xy (s • G)).1 + natOfBytes (H mz)) % SM2.n) (hr0 : r ≠ 0) (ht : (r + s) % SM2.n ≠ 0) :
    SM2.verify (portableSM2 checked sha512 ctr) H ⟨Curves.sm2, 0, 0⟩ id msg r s = true := by
  have := good_sm2.fact
  have hn : 0 < Curves.sm2.N := by decide +kernel
  have hrn : r < Curves.sm2.N := by rw [hr]; exact Nat.mod_lt _ hn
  have hsG : s • G ≠ 0 := by
    rw [Ne, good_sm2.smul_eq_zero_iff (good_sm2.G_ne_zero hG)]
    exact fun h => absurd (Nat.le_of_dvd hs (Nat.dvd_of_mod_eq_zero h)) (Nat.not_le.2 hsn)
  have hq : ¬ ((xy (s • G)).1 = 0 ∧ (xy (s • G)).2 = 0) := fun h =>
    hsG (Affine.xy_inj good_sm2.ok (by rw [Affine.xy_zero]; exact Prod.ext h.1 h.2))
  have hsn' : s < Curves.sm2.N := hsn
  have ht' : (((r : Int) + s) % (Curves.sm2.N : Int)) ≠ 0 := by
    intro h; apply ht; exact_mod_cast h
  have ht0 : 0 ≤ (((r : Int) + s) % (Curves.sm2.N : Int)) := Int.emod_nonneg _ (by omega)
  unfold SM2.verify
  simp only [portable_combine checked sha512 ctr G hG, hz, Int.toNat_natCast]
  rw [if_neg (by omega), if_neg (by omega), if_neg (by omega), if_neg hq, beq_iff_eq, hr]

theorem cancel_mod {n a b e : Nat} (h1 : (a + e) % n = 0) (h2 : (b + e) % n = 0) : a % n = b % n :=
  Nat.ModEq.add_right_cancel' e (show (a + e) % n = (b + e) % n by rw [h1, h2])

/-- `s = 1` or `s = 2` meets the conditions. -/
theorem base_x (G : SM2.Point) (hG : xy G = (Curves.sm2.Gx, Curves.sm2.Gy)) (e : Nat) :
    ∃ s ∈ [1, 2], ((xy (s • G)).1 + e) % SM2.n ≠ 0 ∧ (((xy (s • G)).1 + e) % SM2.n + s) % SM2.n ≠ 0 := by
  have := good_sm2.fact
  by_contra hno
  push Not at hno
  have h1 := hno 1 (by simp)
  have h2 := hno 2 (by simp)
  rw [kG_eq G hG, Nat.mod_add_mod] at h1 h2
  have k1 : (kG 1).1 % SM2.n ≠ (kG 2).1 % SM2.n := by decide +kernel
  have k2 : (kG 1).1 % SM2.n ≠ ((kG 2).1 + 2) % SM2.n := by decide +kernel
  have k3 : ((kG 1).1 + 1) % SM2.n ≠ (kG 2).1 % SM2.n := by decide +kernel
  have k4 : ((kG 1).1 + 1) % SM2.n ≠ ((kG 2).1 + 2) % SM2.n := by decide +kernel
  generalize (kG 1).1 = a at *
  generalize (kG 2).1 = b at *
  rw [show a + e + 1 = a + 1 + e by omega] at h1
  rw [show b + e + 2 = b + 2 + e by omega] at h2
  by_cases ha : (a + e) % SM2.n = 0
  · by_cases hb : (b + e) % SM2.n = 0
    · exact k1 (cancel_mod ha hb)
    · exact k2 (cancel_mod ha (h2 hb))
  · by_cases hb : (b + e) % SM2.n = 0
    · exact k3 (cancel_mod (h1 ha) hb)
    · exact k4 (cancel_mod (h1 ha) (h2 hb))

/-- **C140** is false for SM2 signatures: the bytes of a key with both coordinates 0 are parsed, and for every message and
user id everyone can make signatures that `Verify` accepts under this key: any `s` in range, and for `r` the digest plus
the x-coordinate of `s G`, unless `r` or `r + s` is 0 modulo the order; one of `s = 1` and `s = 2` will do. -/
theorem C140_verify_fails (checked : Bool) (sha512 : Bytes → Bytes) (ctr : Bytes → Nat → Nat → Bytes) (K : Keypair.Ext)
    (S : Signature.Ext) (hS : S.sm2 = portableSM2 checked sha512 ctr) (G : SM2.Point)
    (hG : xy G = (Curves.sm2.Gx, Curves.sm2.Gy)) (msg id : Bytes) (hm : msg ≠ []) (c : Option Curve) :
    ∃ pub, (∀ draws, deserializePublicKey K (0x13 :: 20 :: 4 :: zeros 64) draws = some (.ok pub)) ∧
      ∃ mz, SM2.getZ (S.hash .sm3) msg ⟨Curves.sm2, 0, 0⟩ id = .ok mz ∧
        (∀ r s : Nat, 0 < s → s < SM2.n → r = ((xy (s • G)).1 + natOfBytes (S.hash .sm3 mz)) % SM2.n → r ≠ 0 →
          (r + s) % SM2.n ≠ 0 → verify S pub msg (some ⟨SM3withSM2, .sm2 r s c id⟩) = .ok true) ∧
        ∃ r s : Nat, s ≤ 2 ∧ verify S pub msg (some ⟨SM3withSM2, .sm2 r s c id⟩) = .ok true := by
  have hml : msg.length ≠ 0 := by simpa using hm
  have hg : ∃ mz, SM2.getZ (S.hash .sm3) msg ⟨Curves.sm2, 0, 0⟩ id = .ok mz := by
    unfold SM2.getZ; exact ⟨_, if_neg (by simp)⟩
  obtain ⟨mz, hz⟩ := hg
  have all : ∀ r s : Nat, 0 < s → s < SM2.n → r = ((xy (s • G)).1 + natOfBytes (S.hash .sm3 mz)) % SM2.n → r ≠ 0 →
      (r + s) % SM2.n ≠ 0 →
      verify S (.ec .sm2 ⟨Curves.sm2, 0, 0⟩) msg (some ⟨SM3withSM2, .sm2 r s c id⟩) = .ok true := by
    intro r s h1 h2 h3 h4 h5
    have h := verify_zero_key checked sha512 ctr G hG (S.hash .sm3) msg id mz hz r s h1 h2 h3 h4 h5
    unfold verify
    have hh : hashOf SM3withSM2 = some .sm3 := by decide
    simp only [if_neg hml, hh, hS, h]
    decide
  refine ⟨.ec .sm2 ⟨Curves.sm2, 0, 0⟩, ?_, mz, hz, all, ?_⟩
  · intro draws
    have h := parse_raw K (zeros 32) (zeros 32) (by simp [zeros]) (by simp [zeros]) draws
    rwa [show zeros 32 ++ zeros 32 = zeros 64 by decide, show natOfBytes (zeros 32) = 0 by decide] at h
  · obtain ⟨s, hs, h1, h2⟩ := base_x G hG (natOfBytes (S.hash .sm3 mz))
    have hs' : 0 < s ∧ s ≤ 2 := by
      rcases List.mem_pair.1 hs with rfl | rfl <;> simp
    exact ⟨_, s, hs'.2, all _ s hs'.1 (lt_of_le_of_lt hs'.2 (by decide +kernel)) rfl h1 h2⟩

/-- **C140 (partial)**: neither happens with keys that were parsed from compressed bytes: such a key is a point of the
curve, its multiples `k P` for `k` below the order are all different, and its y-coordinate is not 0.
Missing: uncompressed bytes, see `C140_verify_fails` and `C140_encrypt_fails`. -/
theorem C140_compressed_partial (K : Keypair.Ext) (hk : K.k1name ≠ "sm2p256v1") (data : Bytes)
    (hc : data.head? ≠ some 4) (draws : List Nat) (key : PublicKey)
    (h : deserializePublicKey K (0x13 :: 20 :: data) draws = some (.ok key)) [Fact Curves.sm2.P.Prime] :
    ∃ pub, key = .ec .sm2 pub ∧ pub.curve = Curves.sm2 ∧
      ∃ P : SM2.Point, xy P = (pub.x % Curves.sm2.P, pub.y % Curves.sm2.P) ∧ pub.y % Curves.sm2.P ≠ 0 ∧
        ∀ k l : Nat, k < SM2.n → l < SM2.n → k • P = l • P → k = l := by
  have hcv : getCurve K 20 = .ok Curves.sm2 := by rfl
  unfold deserializePublicKey at h
  by_cases hl : (0x13 :: 20 :: data : Bytes).length ≤ 3
  · rw [if_pos hl] at h
    cases Option.some.inj h
  · rw [if_neg hl] at h
    simp only [List.getD_cons_zero, List.getD_cons_succ, List.drop_succ_cons, List.drop_zero, hcv] at h
    cases hd : Verif.EC.decodePublicKey K.k1name data (some Curves.sm2) draws with
    | none => rw [hd] at h; cases h
    | some r =>
      rw [hd] at h
      cases r with
      | err m => cases Option.some.inj h
      | panic m => cases Option.some.inj h
      | ok pub =>
        have e := Res.ok.inj (Option.some.inj h)
        obtain ⟨hpc, hon, -⟩ := C12_decoded_on_curve_partial K.k1name Curves.sm2
          (supported_goodField K.k1name Curves.sm2 (by simp [Curves.all])) data draws pub hc hd
        have ha : curveA K.k1name Curves.sm2 = -3 := by
          unfold curveA; rw [if_neg]; exact fun h => hk h.symm
        rw [ha] at hon
        have hxy : xy (Affine.ofXY good_sm2.ok hon) = (pub.x % Curves.sm2.P, pub.y % Curves.sm2.P) := by
          unfold Affine.ofXY
          rw [Affine.xy_some, ZMod.val_natCast, ZMod.val_natCast]
        refine ⟨pub, e.symm, hpc, _, hxy, fun h0 => ?_, fun k l hk hl he => ?_⟩
        · have hy : ((pub.y : Nat) : ZMod Curves.sm2.P) = 0 :=
            (ZMod.natCast_eq_zero_iff _ _).2 (Nat.dvd_of_mod_eq_zero h0)
          have hon' : OnCurve Curves.sm2 (-3) pub.x 0 := by
            rw [Affine.onCurve_cast] at hon ⊢
            rw [← hon, hy, Nat.cast_zero]
          have hq := Affine.ofXY_ne_zero good_sm2.ok hon'
          rcases two_torsion good_sm2.ok hon' 2 with h2 | h2
          · exact absurd ((good_sm2.smul_eq_zero_iff hq 2).1 h2) (by decide +kernel)
          · exact absurd ((good_sm2.smul_eq_iff hq 2 1).1 (by rw [h2, one_nsmul])) (by decide +kernel)
        · have := (good_sm2.smul_eq_iff (Affine.ofXY_ne_zero good_sm2.ok hon) k l).1 he
          rwa [Nat.mod_eq_of_lt hk, Nat.mod_eq_of_lt hl] at this

/-- The key `(3, 0)` is one that `C140_encrypt_fails` speaks of, and there are ciphertexts for it. -/
example : OnCurve (withB Curves.sm2 (Curves.sm2.P - 18)) (-3) 3 0 ∧ Affine.Ok (withB Curves.sm2 (Curves.sm2.P - 18)) (-3) ∧
    ∃ ct, SM2.encrypt (portableSM2 false id (fun _ _ len => zeros len)) 1 (zeros 64) ⟨Curves.sm2, 3, 0⟩ [1, 2, 3] =
      some (.ok ct) := by
  refine ⟨by decide +kernel, ⟨by decide +kernel, by decide +kernel, by decide +kernel⟩, ?_⟩
  have h : ((SM2.encrypt (portableSM2 false id (fun _ _ len => zeros len)) 1 (zeros 64) ⟨Curves.sm2, 3, 0⟩
      [1, 2, 3]).any fun r => match r with | .ok _ => true | _ => false) = true := by decide +kernel
  generalize SM2.encrypt _ _ _ _ _ = o at h ⊢
  match o, h with
  | some (.ok ct), _ => exact ⟨ct, rfl⟩

/-- The base point, compressed, is parsed. -/
example (K : Keypair.Ext) (hk : K.k1name = "") : (0x02 :: beFix 32 Curves.sm2.Gx : Bytes).head? ≠ some 4 ∧
    ∃ key, deserializePublicKey K (0x13 :: 20 :: 0x02 :: beFix 32 Curves.sm2.Gx) [] = some (.ok key) := by
  refine ⟨by decide, .ec .sm2 ⟨Curves.sm2, Curves.sm2.Gx, Curves.sm2.Gy⟩, ?_⟩
  have hcv : getCurve K 20 = .ok Curves.sm2 := by rfl
  have hd : Verif.EC.decodePublicKey "" (0x02 :: beFix 32 Curves.sm2.Gx) (some Curves.sm2) [] =
      some (.ok ⟨Curves.sm2, Curves.sm2.Gx, Curves.sm2.Gy⟩) := by decide +kernel
  unfold deserializePublicKey
  rw [if_neg (by simp)]
  simp only [List.getD_cons_zero, List.getD_cons_succ, List.drop_succ_cons, List.drop_zero, hcv, hk, hd]
  rfl

/-- There are implementations as `C140_verify_fails` has them. -/
example (S : Signature.Ext) : ∃ (G : SM2.Point) (S' : Signature.Ext), xy G = (Curves.sm2.Gx, Curves.sm2.Gy) ∧
    S'.hash = S.hash ∧ S'.sm2 = portableSM2 false S.sm2.sha512 S.sm2.ctr := by
  obtain ⟨G, hG⟩ := good_sm2.exists_G
  exact ⟨G, { S with sm2 := portableSM2 false S.sm2.sha512 S.sm2.ctr }, hG, rfl, rfl⟩

end Verif.Props
