import Verif.Model.GoECDSA
import Verif.Props.BadKeys
import Verif.Lemmas.RefSig
/-!
# C141: ECDSA of the standard library is what the signature package assumes
-/
namespace Verif.Props
open Verif.Keypair Verif.Signature Verif.Spec Verif.Spec.ECDSA

/-- What is needed of a curve: its methods compute in the group of points, `Inverse` inverts modulo the order and
`CombinedMult` is the sum of the two multiples. -/
structure GoCurve (L : GoECDSA.Ext) (c : Curve) (a : Int) : Prop where
  ops : (L.ops c).Lawful c a
  inverse : ∀ f, L.inverse c = some f → ∀ k, k % c.N ≠ 0 → k * f k % c.N = 1
  combined : ∀ f, L.combinedMult c = some f → ∀ [Fact c.P.Prime] (G Q : Pt c a), xy G = (c.Gx, c.Gy) → Q ≠ 0 →
    ∀ s t, f (xy Q) s t = xy (s • G + t • Q)

theorem natOfBytes_shift (b : Bytes) (n : Nat) :
    natOfBytes b >>> (8 * (b.length - n)) = natOfBytes (b.take n) := by
  have e := natOfBytes_append (b.take n) (b.drop n)
  rw [List.take_append_drop] at e
  have hl : (b.drop n).length = b.length - n := List.length_drop
  have hlt := natOfBytes_lt (b.drop n)
  rw [hl] at e hlt
  rw [Nat.shiftRight_eq_div_pow, show (2 : Nat) ^ (8 * (b.length - n)) = 256 ^ (b.length - n) by
    rw [Nat.pow_mul], e, Nat.add_comm, Nat.add_mul_div_right _ _ (Nat.pow_pos (by decide)),
    Nat.div_eq_of_lt hlt, Nat.zero_add]

/-- **C141** The number made of the hash value is that of the standard, for every order and every length of the hash. -/
theorem C141_hash (c : Curve) (hash : Bytes) : GoECDSA.hashToInt hash c = bits2int c.N hash := by
  unfold GoECDSA.hashToInt bits2int
  dsimp only
  generalize Nat.log2 c.N = l
  by_cases h : hash.length > (l + 1 + 7) / 8
  · rw [if_pos h]
    have hl : (hash.take ((l + 1 + 7) / 8)).length = (l + 1 + 7) / 8 := by
      rw [List.length_take]; omega
    rw [hl]
    have e : 8 * hash.length - l - 1 = 8 * (hash.length - (l + 1 + 7) / 8) + ((l + 1 + 7) / 8 * 8 - (l + 1)) := by
      omega
    rw [e, Nat.shiftRight_add, natOfBytes_shift hash _]
    split_ifs with h2
    · rfl
    · rw [show (l + 1 + 7) / 8 * 8 - (l + 1) = 0 by omega]; rfl
  · rw [if_neg h]
    split_ifs with h2
    · congr 1; omega
    · rw [show 8 * hash.length - l - 1 = 0 by omega]; rfl

theorem modInverse_spec {N : Nat} (hN : N.Prime) (s : Nat) (hs : s % N ≠ 0) : s * GoECDSA.modInverse s N % N = 1 := by
  have hc : Nat.gcd s N = 1 := by
    rw [← Nat.coprime_iff_gcd_eq_one, Nat.coprime_comm, hN.coprime_iff_not_dvd]
    exact fun h => hs (Nat.mod_eq_zero_of_dvd h)
  have hb := Nat.gcd_eq_gcd_ab s N
  rw [hc] at hb
  have hpos : (0 : Int) < N := by exact_mod_cast hN.pos
  have h0 : 0 ≤ Nat.gcdA s N % (N : Int) := Int.emod_nonneg _ hpos.ne'
  have key : ((s * GoECDSA.modInverse s N % N : Nat) : Int) = 1 := by
    unfold GoECDSA.modInverse
    push_cast
    rw [Int.toNat_of_nonneg h0, Int.mul_emod, Int.emod_emod_of_dvd _ (dvd_refl _), ← Int.mul_emod,
      show (s : Int) * Nat.gcdA s N = 1 + N * (- Nat.gcdB s N) by push_cast at hb; linarith, Int.add_mul_emod_self_left]
    exact Int.emod_eq_of_lt (by decide) (by exact_mod_cast hN.one_lt)
  exact_mod_cast key

/-- **C141** `ecdsa.Verify` accepts exactly the pairs of numbers that the standard accepts. -/
theorem C141_verify (L : GoECDSA.Ext) (pub : ECPub) (a : Int) (hg : GoodCurve pub.curve a) (hL : GoCurve L pub.curve a)
    [Fact pub.curve.P.Prime] (G Q : Pt pub.curve a) (hG : xy G = (pub.curve.Gx, pub.curve.Gy)) (hQ0 : Q ≠ 0)
    (hQ : xy Q = (pub.x, pub.y)) (digest : Bytes) (r s : Int) :
    GoECDSA.verify L pub digest r s = true ↔ Accepts G Q (bits2int pub.curve.N digest) r s := by
  unfold GoECDSA.verify
  simp only [C141_hash]
  by_cases h1 : r ≤ 0 ∨ s ≤ 0
  · rw [if_pos h1]
    simp only [Bool.false_eq_true, false_iff]
    rintro ⟨e1, e2, e3, e4, -⟩; omega
  rw [if_neg h1]
  by_cases h2 : r ≥ pub.curve.N ∨ s ≥ pub.curve.N
  · rw [if_pos h2]
    simp only [Bool.false_eq_true, false_iff]
    rintro ⟨e1, e2, e3, e4, -⟩; omega
  rw [if_neg h2]
  have hs0 : s.toNat % pub.curve.N ≠ 0 := by rw [Nat.mod_eq_of_lt (by omega)]; omega
  have hw : s.toNat * GoECDSA.verifyInverse L pub.curve s.toNat % pub.curve.N = 1 := by
    unfold GoECDSA.verifyInverse
    cases hi : L.inverse pub.curve with
    | none => exact modInverse_spec hg.order_prime _ hs0
    | some f => exact hL.inverse f hi _ hs0
  generalize GoECDSA.verifyInverse L pub.curve s.toNat = w at hw ⊢
  rw [accepts_iff hg hw]
  have hq : ∀ u v, GoECDSA.combine L pub u v = xy (u • G + v • Q) := by
    intro u v
    unfold GoECDSA.combine
    cases hi : L.combinedMult pub.curve with
    | none =>
      simp only
      rw [← hQ, hL.ops.base G hG, hL.ops.mult, hL.ops.add]
    | some f => simp only; rw [← hQ]; exact hL.combined f hi G Q hG hQ0 u v
  rw [hq, Affine.mod_smul hg.card, Affine.mod_smul hg.card]
  have hz := Affine.xy_eq_zero_iff hg.ok ((bits2int pub.curve.N digest * w) • G + (r.toNat * w) • Q)
  rw [Prod.ext_iff] at hz
  by_cases h3 : (bits2int pub.curve.N digest * w) • G + (r.toNat * w) • Q = 0
  · rw [if_pos (hz.2 h3)]
    simp [h3]
  · rw [if_neg (fun e => h3 (hz.1 e)), beq_iff_eq]
    constructor
    · intro e; exact ⟨by omega, by omega, by omega, by omega, h3, e⟩
    · rintro ⟨-, -, -, -, -, e⟩; exact e

theorem goNonce_range (c : Curve) (h : 2 < c.N) (b : Bytes) :
    0 < GoECDSA.randFieldElement c b ∧ GoECDSA.randFieldElement c b < c.N := by
  have := Nat.mod_lt (natOfBytes b) (show 0 < c.N - 1 by omega)
  unfold GoECDSA.randFieldElement; omega

theorem goSignTry (L : GoECDSA.Ext) (c : Curve) (a : Int) (hg : GoodCurve c a) (h2 : 2 < c.N) (hL : GoCurve L c a)
    [Fact c.P.Prime] (G : Pt c a) (hG : xy G = (c.Gx, c.Gy)) {D e k r s : Nat} (hk0 : 0 < k) (hk : k < c.N)
    (h : GoECDSA.signTry L c D e k = some (r, s)) : Signed G D e r s := by
  have hk1 : k % c.N ≠ 0 := by rw [Nat.mod_eq_of_lt hk]; omega
  unfold GoECDSA.signTry at h
  have hi : k * GoECDSA.nonceInverse L c k % c.N = 1 := by
    unfold GoECDSA.nonceInverse
    cases hi : L.inverse c with
    | none => exact (SM2.fermatInverse_spec hg.order_prime h2 k).1 hk1
    | some f => exact hL.inverse f hi _ hk1
  simp only [hL.ops.base G hG] at h
  generalize GoECDSA.nonceInverse L c k = w at hi h
  split_ifs at h with h0 h3
  have e1 := congrArg Prod.fst (Option.some.inj h)
  have e2 := congrArg Prod.snd (Option.some.inj h)
  simp only at e1 e2
  rw [e1] at e2 h0 h3
  rw [e2] at h3
  refine ⟨k, hk0, hk, e1.symm, Nat.pos_of_ne_zero h0, Nat.pos_of_ne_zero h3, ?_, ?_⟩
  · rw [← e2]; exact Nat.mod_lt _ hg.order_prime.pos
  · rw [← e2, Nat.mul_mod, Nat.mod_mod, ← Nat.mul_mod, show k * ((D * r + e) * w) = k * w * (e + r * D) by ring,
      Nat.mul_mod, hi, one_mul, Nat.mod_mod]

/-- **C141** What `ecdsa.Sign` returns is a signature of the standard by this private key, whatever the random source
yields. -/
theorem C141_sign (L : GoECDSA.Ext) (fuel : Nat) (priv : ECPriv) (a : Int) (hg : GoodCurve priv.pub.curve a)
    (h2 : 2 < priv.pub.curve.N) (hL : GoCurve L priv.pub.curve a) [Fact priv.pub.curve.P.Prime] (G : Pt priv.pub.curve a)
    (hG : xy G = (priv.pub.curve.Gx, priv.pub.curve.Gy)) (digest rand : Bytes) (r s : Nat)
    (h : GoECDSA.sign L fuel priv digest rand = .ok (r, s)) :
    Signed G priv.D (bits2int priv.pub.curve.N digest) r s := by
  unfold GoECDSA.sign at h
  simp only [C141_hash] at h
  split_ifs at h with h1 h3
  have loop : ∀ l : List Bytes, GoECDSA.signLoop L priv.pub.curve priv.D (bits2int priv.pub.curve.N digest) l = some (r, s) →
      Signed G priv.D (bits2int priv.pub.curve.N digest) r s := by
    intro l
    induction l with
    | nil => intro e; cases e
    | cons b l ih =>
      intro e
      rw [GoECDSA.signLoop] at e
      cases ht : GoECDSA.signTry L priv.pub.curve priv.D (bits2int priv.pub.curve.N digest)
          (GoECDSA.randFieldElement priv.pub.curve b) with
      | none => rw [ht] at e; exact ih e
      | some rs =>
        rw [ht] at e
        rw [Option.some.inj e] at ht
        obtain ⟨k0, k1⟩ := goNonce_range priv.pub.curve h2 b
        exact goSignTry L _ a hg h2 hL G hG k0 k1 ht
  generalize List.map _ (List.range fuel) = l at h
  cases hl : GoECDSA.signLoop L priv.pub.curve priv.D (bits2int priv.pub.curve.N digest) l with
  | none => rw [hl] at h; cases h
  | some rs =>
    rw [hl] at h
    rw [Res.ok.inj h] at hl
    exact loop l hl

/-- The signature package with `ecdsa.Sign` and `ecdsa.Verify` of the standard library. -/
def withGo (E : Signature.Ext) (L : GoECDSA.Ext) (fuel : Nat) : Signature.Ext :=
  { E with ecdsaSign := GoECDSA.sign L fuel, ecdsaVerify := GoECDSA.verify L }

theorem all_two_lt (nm : String) : ∀ c ∈ Curves.all nm, 2 < c.N := by
  intro c hc
  simp only [Curves.all, List.mem_cons, List.not_mem_nil, or_false] at hc
  rcases hc with rfl | rfl | rfl | rfl | rfl | rfl <;> first
    | decide +kernel
    | exact k1_two

/-- **C141** With the curves' methods as the contract has them, the functions of the standard library are what the proofs about
package signature assume of `ecdsa.Sign` and `ecdsa.Verify`. -/
theorem C141_assumptions (E : Signature.Ext) (hE : E.Lawful) (L : GoECDSA.Ext)
    (hL : ∀ c ∈ Curves.all E.k1name, GoCurve L c (curveA E.k1name c)) (fuel : Nat) : (withGo E L fuel).Lawful where
  k1name := hE.k1name
  sm2 := hE.sm2
  ecdsa_sign := by
    intro priv digest rand r s hp h _ G hG
    exact C141_sign L fuel priv _ (good_of_mem E.k1name hE.k1name _ hp.1) (all_two_lt _ _ hp.1) (hL _ hp.1) G hG digest rand
      r s h
  ecdsa_verify := by
    intro pub digest r s hc _ G Q hG hQ0 hQ
    exact C141_verify L pub _ (good_of_mem E.k1name hE.k1name _ hc) (hL _ hc) G Q hG hQ0 hQ digest r s
  compact := hE.compact
  compact_sound := hE.compact_sound
  ed_public := hE.ed_public
  ed_sig := hE.ed_sig
  ed := hE.ed
  eth_sign := hE.eth_sign
  eth_verify := hE.eth_verify

/-- **C141** For P-384, P-521 and SM2 on platforms without assembly nothing is left to assume: the methods are those of
`elliptic.CurveParams`. It is enough that the methods of P-224, P-256 and secp256k1 compute in the group. -/
theorem C141_portable (E : Signature.Ext) (hE : E.Lawful) (L : GoECDSA.Ext)
    (h3 : ∀ c ∈ [Curves.p384, Curves.p521, Curves.sm2],
      L.ops c = Generic.ops c ∧ L.inverse c = none ∧ L.combinedMult c = none)
    (hL : ∀ c ∈ [Curves.p224, Curves.p256, Curves.secp256k1 E.k1name], GoCurve L c (curveA E.k1name c)) (fuel : Nat) :
    (withGo E L fuel).Lawful := by
  refine C141_assumptions E hE L (fun c hc => ?_) fuel
  by_cases hm : c ∈ [Curves.p384, Curves.p521, Curves.sm2]
  · obtain ⟨h1, h2, h4⟩ := h3 c hm
    have hm3 : c ∈ minus3Curves := by
      simp only [minus3Curves, List.mem_cons, List.not_mem_nil, or_false] at hm ⊢
      tauto
    have ha : curveA E.k1name c = -3 := by
      simp only [List.mem_cons, List.not_mem_nil, or_false] at hm
      unfold curveA
      rcases hE.k1name with h | h <;> rw [h] <;> rcases hm with rfl | rfl | rfl <;> decide
    rw [ha]
    refine ⟨h1 ▸ C114_contract c hm3, fun f hf => ?_, fun f hf => ?_⟩
    · rw [h2] at hf; cases hf
    · rw [h4] at hf; cases hf
  · refine hL c ?_
    simp only [Curves.all, List.mem_cons, List.not_mem_nil, or_false] at hc hm ⊢
    tauto

/-- Uncompressed keys with the tag of ECDSA are parsed without a check. -/
theorem parse_ecdsa_raw (K : Keypair.Ext) (label : Byte) (c : Curve) (hc : getCurve K label = .ok c) (hb : 1 < c.byteSize)
    (draws : List Nat) :
    deserializePublicKey K (0x12 :: label :: 4 :: (zeros c.byteSize ++ zeros c.byteSize)) draws =
      some (.ok (.ec .ecdsa ⟨c, 0, 0⟩)) := by
  have hd := Verif.EC.decode_uncompressed K.k1name c (zeros c.byteSize) (zeros c.byteSize) [] (by simp) (by simp) draws
  rw [List.append_nil, natOfBytes_zeros] at hd
  unfold deserializePublicKey
  rw [if_neg (by simp; omega)]
  simp only [List.getD_cons_zero, List.getD_cons_succ, List.drop_succ_cons, List.drop_zero, hc, hd]
  rfl

theorem go_verify_zero_key (L : GoECDSA.Ext) (c : Curve) (hm : c ∈ minus3Curves)
    (hL : L.ops c = Generic.ops c ∧ L.inverse c = none ∧ L.combinedMult c = none) (hx : c.Gx % c.N ≠ 0) (digest : Bytes)
    (he : bits2int c.N digest % c.N ≠ 0) :
    GoECDSA.verify L ⟨c, 0, 0⟩ digest (c.Gx % c.N : Nat) (bits2int c.N digest % c.N : Nat) = true := by
  obtain ⟨h1, h2, h3⟩ := hL
  have hg := minus3_good hm
  have := hg.fact
  obtain ⟨G, hG⟩ := hg.exists_G
  have hl := C114_contract c hm
  have hN := hg.order_prime
  have hr := Nat.mod_lt c.Gx hN.pos
  have hs := Nat.mod_lt (bits2int c.N digest) hN.pos
  unfold GoECDSA.verify
  simp only [C141_hash, Int.toNat_natCast]
  rw [if_neg (by omega), if_neg (by omega)]
  have hw := modInverse_spec hN (bits2int c.N digest % c.N) (by rwa [Nat.mod_mod])
  have e1 : GoECDSA.verifyInverse L c (bits2int c.N digest % c.N) = GoECDSA.modInverse (bits2int c.N digest % c.N) c.N := by
    unfold GoECDSA.verifyInverse; rw [h2]
  rw [Nat.mod_mul_mod] at hw
  rw [e1, hw]
  have e2 : ∀ v, GoECDSA.combine L ⟨c, 0, 0⟩ 1 v = (c.Gx, c.Gy) := by
    intro v
    unfold GoECDSA.combine
    simp only [h3, h1]
    have hz := hl.mult (0 : Pt c (-3)) v
    rw [nsmul_zero, Affine.xy_zero] at hz
    have ha := hl.add G 0
    rw [Affine.xy_zero, add_zero] at ha
    rw [hz, hl.base G hG, one_nsmul, ha, hG]
  rw [e2]
  have hne : ¬ (c.Gx = 0 ∧ c.Gy = 0) := fun h =>
    hg.xy_ne_zero (hg.G_ne_zero hG) (by rw [hG]; exact Prod.ext h.1 h.2)
  rw [if_neg hne, beq_iff_eq]

/-- **C140** is false for ECDSA signatures on P-384, P-521 and the SM2 curve: the bytes of a key with both coordinates 0 are
parsed, and `Verify` accepts under this key, for every ECDSA scheme and every message whose digest is not 0 modulo the
order, the pair of the x-coordinate of the base point and the digest. -/
theorem C140_ecdsa_fails (K : Keypair.Ext) (S : Signature.Ext) (L : GoECDSA.Ext) (fuel : Nat)
    (h3 : ∀ c ∈ [Curves.p384, Curves.p521, Curves.sm2],
      L.ops c = Generic.ops c ∧ L.inverse c = none ∧ L.combinedMult c = none) :
    ∀ lc ∈ [((3 : Byte), Curves.p384), (4, Curves.p521), (20, Curves.sm2)], ∃ pub,
      (∀ draws, deserializePublicKey K (0x12 :: lc.1 :: 4 :: zeros (2 * lc.2.byteSize)) draws = some (.ok pub)) ∧
      ∀ (scheme : Scheme) (h : HashAlg) (msg : Bytes), isECDSA scheme = true → hashOf scheme = some h → msg ≠ [] →
        bits2int lc.2.N (S.hash h msg) % lc.2.N ≠ 0 →
        verify (withGo S L fuel) pub msg (some ⟨scheme, .dsa (lc.2.Gx % lc.2.N : Nat)
          (bits2int lc.2.N (S.hash h msg) % lc.2.N : Nat) (some lc.2)⟩) = .ok true := by
  have key : ∀ (label : Byte) (c : Curve), getCurve K label = .ok c → 1 < c.byteSize → c ∈ minus3Curves →
      c ∈ [Curves.p384, Curves.p521, Curves.sm2] → c.Gx % c.N ≠ 0 → ∃ pub,
      (∀ draws, deserializePublicKey K (0x12 :: label :: 4 :: zeros (2 * c.byteSize)) draws = some (.ok pub)) ∧
      ∀ (scheme : Scheme) (h : HashAlg) (msg : Bytes), isECDSA scheme = true → hashOf scheme = some h → msg ≠ [] →
        bits2int c.N (S.hash h msg) % c.N ≠ 0 →
        verify (withGo S L fuel) pub msg (some ⟨scheme, .dsa (c.Gx % c.N : Nat)
          (bits2int c.N (S.hash h msg) % c.N : Nat) (some c)⟩) = .ok true := by
    intro label c hc hb hm hm3 hx
    refine ⟨.ec .ecdsa ⟨c, 0, 0⟩, fun draws => ?_, fun scheme h msg hs hh hmsg he => ?_⟩
    · rw [two_mul, ← parse_ecdsa_raw K label c hc hb draws]
      unfold zeros
      rw [List.replicate_append_replicate]
    · have hml : msg.length ≠ 0 := by simpa using hmsg
      have hv := go_verify_zero_key L c hm (h3 c hm3) hx (S.hash h msg) he
      have hH : (withGo S L fuel).hash h msg = S.hash h msg := by cases h <;> rfl
      have hV : (withGo S L fuel).ecdsaVerify = GoECDSA.verify L := rfl
      unfold verify
      simp only [if_neg hml, hh, if_pos hs, hH, hV, hv]
  intro lc hlc
  simp only [List.mem_cons, List.not_mem_nil, or_false] at hlc
  rcases hlc with rfl | rfl | rfl
  · exact key 3 Curves.p384 rfl (by decide) (by simp [minus3Curves]) (by simp) (by decide +kernel)
  · exact key 4 Curves.p521 rfl (by decide) (by simp [minus3Curves]) (by simp) (by decide +kernel)
  · exact key 20 Curves.sm2 rfl (by decide) (by simp [minus3Curves]) (by simp) (by decide +kernel)

/-- Textbook arithmetic, with the optional methods on P-256 only, stand-ins for the hash function and the keystream. -/
def refGo : GoECDSA.Ext where
  ops c := if c ∈ [Curves.p384, Curves.p521, Curves.sm2] then Generic.ops c else affineOps c (refA c)
  inverse c := if c = Curves.p256 then some (fun k => SM2.fermatInverse k c.N) else none
  combinedMult c := if c = Curves.p256 then some (fun q s t =>
    Affine.add c.P (refA c) (Affine.smul c.P (refA c) s (c.Gx, c.Gy)) (Affine.smul c.P (refA c) t q)) else none
  sha512 m := m
  ctr _ _ len := zeros len

theorem refGo_portable : ∀ c ∈ [Curves.p384, Curves.p521, Curves.sm2],
    refGo.ops c = Generic.ops c ∧ refGo.inverse c = none ∧ refGo.combinedMult c = none := by
  intro c hc
  have hne : c ≠ Curves.p256 := by
    simp only [List.mem_cons, List.not_mem_nil, or_false] at hc
    rcases hc with rfl | rfl | rfl <;> decide
  exact ⟨if_pos hc, if_neg hne, if_neg hne⟩

theorem refGo_curve : ∀ c ∈ [Curves.p224, Curves.p256, Curves.secp256k1 refSig.k1name],
    GoCurve refGo c (curveA refSig.k1name c) := by
  intro c hc
  · have hall : c ∈ Curves.all "" := by
      simp only [Curves.all, List.mem_cons, List.not_mem_nil, or_false] at hc ⊢
      rcases hc with h | h | h
      · simp [h]
      · simp [h]
      · exact .inr (by simp [h, refSig])
    have hg := good_of_mem "" (.inl rfl) c hall
    have hA := refA_cast c hall
    have hno : c ∉ [Curves.p384, Curves.p521, Curves.sm2] := by
      simp only [List.mem_cons, List.not_mem_nil, or_false] at hc
      rcases hc with rfl | rfl | rfl <;> decide
    have hops : refGo.ops c = affineOps c (refA c) := if_neg hno
    refine ⟨hops ▸ affineOps_lawful hg (refA c) hA, fun f hf k hk => ?_, fun f hf => ?_⟩
    · by_cases h2 : c = Curves.p256
      · have : f = fun k => SM2.fermatInverse k c.N := by
          have hf' : (if c = Curves.p256 then some (fun k => SM2.fermatInverse k c.N) else none) = some f := hf
          rw [if_pos h2] at hf'
          exact (Option.some.inj hf').symm
        rw [this]
        exact (SM2.fermatInverse_spec hg.order_prime (all_two_lt "" c hall) k).1 hk
      · have hf' : (if c = Curves.p256 then some (fun k => SM2.fermatInverse k c.N) else none) = some f := hf
        rw [if_neg h2] at hf'; cases hf'
    · intro inst G Q hG _ s t
      have hf' : (if c = Curves.p256 then some (fun q s t =>
        Affine.add c.P (refA c) (Affine.smul c.P (refA c) s (c.Gx, c.Gy)) (Affine.smul c.P (refA c) t q)) else none) =
          some f := hf
      by_cases h2 : c = Curves.p256
      · rw [if_pos h2] at hf'
        rw [← Option.some.inj hf']
        show Affine.add c.P (refA c) (Affine.smul c.P (refA c) s (c.Gx, c.Gy)) (Affine.smul c.P (refA c) t (xy Q)) = _
        rw [← hG]
        have e1 := Affine.smul_eq hg.ok (refA c) hA s G
        have e2 := Affine.smul_eq hg.ok (refA c) hA t Q
        have e3 := Affine.add_eq hg.ok (refA c) hA (s • G) (t • Q)
        exact (congrArg₂ (Affine.add c.P (refA c)) e1 e2).trans e3
      · rw [if_neg h2] at hf'; cases hf'

/-- It meets the hypotheses of `C141_portable`, with the reference implementation of the other external parts, and so there
is such an implementation. -/
theorem refGo_lawful (fuel : Nat) : (withGo refSig refGo fuel).Lawful :=
  C141_portable refSig refSig_lawful refGo refGo_portable refGo_curve fuel

/-- `ecdsa.Sign` returns a signature here, and so `C141_sign` says something. -/
example : ∃ r s, GoECDSA.sign refGo 1 ⟨1, ⟨Curves.p256, Curves.p256.Gx, Curves.p256.Gy⟩⟩ [1, 2, 3] (zeros 32) =
    .ok (r, s) := by
  have h : (match GoECDSA.sign refGo 1 ⟨1, ⟨Curves.p256, Curves.p256.Gx, Curves.p256.Gy⟩⟩ [1, 2, 3] (zeros 32) with
    | .ok _ => true | _ => false) = true := by decide +kernel
  generalize GoECDSA.sign _ _ _ _ _ = o at h ⊢
  match o, h with
  | .ok (r, s), _ => exact ⟨r, s, rfl⟩

/-- Long and short digests, and an order that is not a whole number of bytes. -/
example : GoECDSA.hashToInt [0xff, 0xff] ⟨"", 0, 0x1ff, 0, 0, 0, 9⟩ = 0x1ff ∧
    GoECDSA.hashToInt [0xff, 0xff, 0xff] ⟨"", 0, 0x1ff, 0, 0, 0, 9⟩ = 0x1ff ∧
    GoECDSA.hashToInt [0xff] ⟨"", 0, 0x1ff, 0, 0, 0, 9⟩ = 0xff := by decide

/-- The forged signature on P-384 has a message. -/
example : (∀ c ∈ [Curves.p384, Curves.p521, Curves.sm2],
      refGo.ops c = Generic.ops c ∧ refGo.inverse c = none ∧ refGo.combinedMult c = none) ∧ isECDSA SHA384withECDSA = true ∧
    hashOf SHA384withECDSA = some .sha384 ∧ bits2int Curves.p384.N (refSig.hash .sha384 [7]) % Curves.p384.N ≠ 0 :=
  ⟨refGo_portable, by decide, by decide, by decide +kernel⟩

end Verif.Props
