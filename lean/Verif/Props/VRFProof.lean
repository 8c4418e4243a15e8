import Verif.Props.VRF
/-!
# C111: the VRF proofs that are accepted are those that `Vrf` makes, up to multiples of the group order

For the value that belongs to key and message. Wrong values are the subject of C110.
-/
namespace Verif.Props
open Verif Verif.Spec Verif.Keypair Verif.VRF
open Verif.AES (read_length)
open Verif.Signature (ECPair HashAlg keyOn keyOn_pair)

/-- `Vrf` returns as soon as hash point and challenge are found. -/
theorem vrf_of {E : VRF.Ext} (hE : E.Lawful) {c : Curve} {a : HashAlg} (hv : VrfHash E.k1name c a)
    [Fact c.P.Prime] {G : Pt c (curveA E.k1name c)} (hG : xy G = (c.Gx, c.Gy)) (D : Nat)
    {msg : Bytes} (hm : msg.length < 2 ^ 59) (rb : Bytes) {draws : Nat → List Nat} {fuel : Nat}
    {H : Nat × Nat} {Hp : Pt c (curveA E.k1name c)} {s : Nat}
    (h0 : hashToCurve E a c (enc c (xy (D • G)) ++ msg) draws = some (some H))
    (h3 : xy Hp = (H.1 % c.P, H.2))
    (h4 : hashToInt E a c (transcript c H (xy (D • G)) (xy (D • Hp)) (xy (natOfBytes rb • G))
      (xy (natOfBytes rb • Hp))) fuel = some s) (t : Alg) (h : Heap) (spare : Bytes) :
    ∃ h1 v p, vrf E h (.ec t ⟨D, c, (xy (D • G)).1, (xy (D • G)).2⟩) msg (.ok rb) draws fuel spare =
      some (.ok (h1, v, p)) := by
  have hc := hv.mem
  have hg := good_of_mem E.k1name hE.k1name c hc
  have hF := supported_goodField E.k1name c hc
  obtain ⟨p1, p2, p3, Hp', p4, p5, p6⟩ := hashToCurve_some hE hv.fit (input_short hv.fit (xy (D • G)) msg hm) h0
  have e : Hp' = Hp := Affine.xy_inj hg.ok (p5.trans h3.symm)
  rw [e] at p6
  have he : evaluate E a ⟨D, c, (xy (D • G)).1, (xy (D • G)).2⟩ msg (.ok rb) draws fuel =
      some (.ok (beFix c.byteSize s ++
        beFix c.byteSize ((((natOfBytes rb : Nat) : Int) - (s : Int) * D) % c.N).toNat ++ enc c (xy (D • Hp)))) := by
    unfold evaluate
    simp only
    rw [if_neg (by rw [hv.size]; simp), Prod.mk.eta, marshal_xy hg hF.fits]
    simp only
    rw [h0]
    simp only
    unfold evalWith
    simp only [Prod.mk.eta]
    rw [p6, marshal_xy hg hF.fits]
    simp only
    rw [p6, hE.base c hc G hG, show H = (H.1, H.2) from rfl, challengeInput_eq hg hF.fits p2 p3]
    simp only
    unfold evalTail
    rw [h4]
    rfl
  unfold vrf
  simp only
  rw [(getHash_iff hE c hc a).2 hv]
  simp only
  rw [he]
  exact ⟨_, _, _, rfl⟩

/-- What it takes for `Verify` to return true. -/
theorem verify_true {E : VRF.Ext} (hE : E.Lawful) {t : Alg} {c : Curve} {a : HashAlg}
    (hv : VrfHash E.k1name c a) [Fact c.P.Prime] {G Q : Pt c (curveA E.k1name c)} (hG : xy G = (c.Gx, c.Gy))
    (hQ : Q ≠ 0) {h : Heap} {msg : Bytes} (hm : msg.length < 2 ^ 59) {v p : Slice} (hv' : v.Valid h)
    (hp : p.Valid h) {draws : Nat → List Nat} {fuel : Nat} {h' : Heap}
    (hr : verify E h (.ec t ⟨c, (xy Q).1, (xy Q).2⟩) msg v p draws fuel = some (.ok (h', true))) :
    p.len = 2 * c.byteSize ∧ ∃ (H : Nat × Nat) (V Hp : Pt c (curveA E.k1name c)) (s : Nat),
      hashToCurve E a c (enc c (xy Q) ++ msg) draws = some (some H) ∧ xy Hp = (H.1 % c.P, H.2) ∧
      v.read h = enc c (xy V) ∧
      IsHashPoint (E.hash a) c (curveA E.k1name c) (enc c (xy Q) ++ msg) H.1 H.2 ∧
      (p.read h).take c.byteSize = beFix c.byteSize s ∧ s < c.N ∧
      hashToInt E a c (transcript c H (xy Q) (xy V) (xy (natOfBytes ((p.read h).drop c.byteSize) • G + s • Q))
        (xy (natOfBytes ((p.read h).drop c.byteSize) • Hp + s • V))) fuel = some s := by
  have hg := good_of_mem E.k1name hE.k1name c hv.mem
  have hlv := read_length h v hv'
  have hlp := read_length h p hp
  have hN := (Signature.byteSize_bound hv.mem).1
  rw [verify_bytes (pk := ⟨c, (xy Q).1, (xy Q).2⟩) ((getHash_iff hE c hv.mem a).2 hv) hp] at hr
  simp only at hr
  split_ifs at hr with hl
  · simp at hr
  push Not at hl
  obtain ⟨r', hr', hr⟩ := Option.map_eq_some_iff.1 hr
  cases r' with
  | err m => simp at hr
  | panic m => simp at hr
  | ok i =>
    rw [proofToHash_eq hE hv.fit Q msg _ _ (by omega) (by omega)] at hr'
    cases hu : unmarshal E c (v.read h) with
    | none => rw [hu] at hr'; simp at hr'
    | some U =>
      obtain ⟨V, hV, rfl, hve⟩ := unmarshal_some hE hv.mem hu
      rw [hu] at hr'
      simp only at hr'
      cases hh : hashToCurve E a c (enc c (xy Q) ++ msg) draws with
      | none => rw [hh] at hr'; cases hr'
      | some H =>
        rw [hh] at hr'
        simp only at hr'
        cases H with
        | none => cases hr'
        | some H =>
          obtain ⟨p1, p2, p3, Hp, p4, p5, p6⟩ :=
            hashToCurve_some hE hv.fit (input_short hv.fit (xy Q) msg hm) hh
          rw [hve, checkWith_eq hE hv.fit hG hQ hV p2 p3 p6] at hr'
          obtain ⟨s, hs, hr'⟩ := Option.map_eq_some_iff.1 hr'
          split_ifs at hr' with hsb
          have hsN : s < c.N := by obtain ⟨i, rfl, hlt, -⟩ := hashToInt_spec hs; omega
          have hsn : natOfBytes ((p.read h).take c.byteSize) = s := by
            rw [hsb, natOfBytes_beFix_of_lt (by omega)]
          rw [hsn] at hs
          exact ⟨by omega, H, V, Hp, s, rfl, p5, hve, p1, hsb, hsN, hs⟩

/-- The second half of a proof, reduced modulo the group order. -/
def reduceProof (c : Curve) (p : Bytes) : Bytes :=
  p.take c.byteSize ++ beFix c.byteSize (natOfBytes (p.drop c.byteSize) % c.N)

theorem nonce_back (N D s t : Nat) :
    (((((t + s * D) % N : Nat) : Int) - (s : Int) * D) % N).toNat = t % N := by
  have h : ((((t + s * D) % N : Nat) : Int) - (s : Int) * D) % N = ((t % N : Nat) : Int) := by
    push_cast
    rw [Int.emod_sub_emod]
    congr 1
    ring
  rw [h]
  exact Int.toNat_natCast _

/-- **C111** If `Verify` accepts the right value for a key pair and a message (the one that some call of `Vrf`
returns) with a proof, then there is exactly one random number below the group order for which `Vrf` returns this
value and this proof, with the second half of the proof reduced modulo the group order. Missing: without the
reduction the claim is false (`C111_altered_proof`). -/
theorem C111_accepted_is_made_partial (E : VRF.Ext) (hE : E.Lawful) (t : Alg) (sk : ECPriv) (hk : ECPair E.k1name sk)
    (msg : Bytes) (hm : msg.length < 2 ^ 59) (h : Heap) (v p : Slice) (hv : v.Valid h) (hp : p.Valid h)
    (draws : Nat → List Nat) (fuel : Nat) (h' : Heap)
    (hr : verify E h (.ec t sk.pub) msg v p draws fuel = some (.ok (h', true)))
    (nonce₀ : Res Bytes) (draws₀ : Nat → List Nat) (fuel₀ : Nat) (h₀ h₁ : Heap) (spare₀ : Bytes) (v₀ p₀ : Slice)
    (hval : vrf E h₀ (.ec t sk) msg nonce₀ draws₀ fuel₀ spare₀ = some (.ok (h₁, v₀, p₀)))
    (hsame : v.read h = v₀.read h₁) (h₂ : Heap) (spare : Bytes) :
    ∃! k, k < sk.pub.curve.N ∧ ∃ h₃ v' p',
      vrf E h₂ (.ec t sk) msg (.ok (beFix sk.pub.curve.byteSize k)) draws fuel spare = some (.ok (h₃, v', p')) ∧
      v'.read h₃ = v.read h ∧ p'.read h₃ = reduceProof sk.pub.curve (p.read h) := by
  have hg := good_of_mem E.k1name hE.k1name _ hk.1
  have := hg.fact
  obtain ⟨G, hG⟩ := hg.exists_G
  obtain ⟨a, rb, H0, s0, Hp0, ha, rfl, -, -, hsk, hD, q0, q1, q2, q3, q4, q5, q6⟩ := vrf_made hE hk hm hval G hG
  have hQ : sk.D • G ≠ 0 := by rw [Ne, hg.smul_eq_zero_iff (hg.G_ne_zero hG)]; exact hD
  have hpub : sk.pub = ⟨sk.pub.curve, (xy (sk.D • G)).1, (xy (sk.D • G)).2⟩ := by
    conv_lhs => rw [hsk]
  rw [hpub] at hr
  obtain ⟨hlen, H, V, Hp, s, r0, r1, r2, r3, r4, r5, r6⟩ := verify_true hE ha hG hQ hm hv hp hr
  have hlp := read_length h p hp
  have hN := (Signature.byteSize_bound hk.1).1
  have hN0 := hg.order_prime.pos
  obtain ⟨f1, f2⟩ := hashPoint_unique hg (supported_goodField E.k1name _ hk.1).odd q1 r3
  have hHp : Hp0 = Hp := Affine.xy_inj hg.ok (by rw [q3, r1, f1, f2])
  subst hHp
  have hV : V = sk.D • Hp0 := enc_inj hg (supported_goodField E.k1name _ hk.1).fits (by rw [← r2, hsame, q6])
  subst hV
  have hcomb : ∀ (P : Pt sk.pub.curve (curveA E.k1name sk.pub.curve)) (tt : Nat),
      tt • P + s • (sk.D • P) = ((tt + s * sk.D) % sk.pub.curve.N) • P := by
    intro P tt
    rw [Affine.mod_smul hg.card, add_smul, mul_smul]
  rw [hcomb, hcomb] at r6
  have hk' := Nat.mod_lt (natOfBytes ((p.read h).drop sk.pub.curve.byteSize) + s * sk.D) hN0
  refine ⟨(natOfBytes ((p.read h).drop sk.pub.curve.byteSize) + s * sk.D) % sk.pub.curve.N, ⟨hk', ?_⟩, ?_⟩
  · have hnb : natOfBytes (beFix sk.pub.curve.byteSize
        ((natOfBytes ((p.read h).drop sk.pub.curve.byteSize) + s * sk.D) % sk.pub.curve.N)) =
        (natOfBytes ((p.read h).drop sk.pub.curve.byteSize) + s * sk.D) % sk.pub.curve.N :=
      natOfBytes_beFix_of_lt (by omega)
    obtain ⟨h₃, v', p', hmade⟩ := vrf_of hE ha hG sk.D hm (beFix sk.pub.curve.byteSize
        ((natOfBytes ((p.read h).drop sk.pub.curve.byteSize) + s * sk.D) % sk.pub.curve.N)) r0 r1
        (by rw [hnb]; exact r6) t h₂ spare
    rw [← hsk] at hmade
    refine ⟨h₃, v', p', hmade, ?_⟩
    obtain ⟨a', rb', H', s', Hp', ha', hrb', -, -, -, -, w0, w1, w2, w3, w4, w5, w6⟩ := vrf_made hE hk hm hmade G hG
    have ea : a' = a := by
      have := (getHash_iff hE _ hk.1 a).2 ha
      rw [(getHash_iff hE _ hk.1 a').2 ha'] at this
      exact Option.some.inj this
    subst ea
    have eH : H' = H := by rw [r0] at w0; exact (Option.some.inj (Option.some.inj w0)).symm
    subst eH
    have eHp : Hp' = Hp0 := Affine.xy_inj hg.ok (w3.trans r1.symm)
    subst eHp
    have erb := Res.ok.inj hrb'
    subst erb
    rw [hnb, r6] at w4
    have es := Option.some.inj w4
    subst es
    refine ⟨w6.trans r2.symm, ?_⟩
    rw [w5, hnb, nonce_back, reduceProof, r4]
  · rintro k ⟨hkN, h₃, v', p', hmade, e1, e2⟩
    obtain ⟨a', rb', H', s', Hp', ha', hrb', -, -, -, -, w0, w1, w2, w3, w4, w5, w6⟩ := vrf_made hE hk hm hmade G hG
    have erb := Res.ok.inj hrb'
    subst erb
    have hnb : natOfBytes (beFix sk.pub.curve.byteSize k) = k := natOfBytes_beFix_of_lt (by omega)
    have hs' : s' < sk.pub.curve.N := by obtain ⟨i, rfl, hlt, -⟩ := hashToInt_spec w4; omega
    rw [w5, reduceProof, r4, hnb] at e2
    obtain ⟨g1, g2⟩ := List.append_inj e2 (by rw [beFix_length, beFix_length])
    have g1 := congrArg natOfBytes g1
    rw [natOfBytes_beFix_of_lt (by omega), natOfBytes_beFix_of_lt (by omega)] at g1
    subst g1
    have g2 := congrArg natOfBytes g2
    have hN0' : (0 : Int) < sk.pub.curve.N := by exact_mod_cast hN0
    have hlt := Int.emod_lt_of_pos ((k : Int) - (s' : Int) * sk.D) hN0'
    have hlt' := Nat.mod_lt (natOfBytes ((p.read h).drop sk.pub.curve.byteSize)) hN0
    rw [natOfBytes_beFix_of_lt (by omega), natOfBytes_beFix_of_lt (by omega)] at g2
    have hnn := Int.emod_nonneg ((k : Int) - (s' : Int) * sk.D) hN0'.ne'
    have g3 : ((k : Int) - (s' : Int) * sk.D) % sk.pub.curve.N =
        (natOfBytes ((p.read h).drop sk.pub.curve.byteSize) : Int) % sk.pub.curve.N := by
      rw [← Int.toNat_of_nonneg hnn, g2]; push_cast; rfl
    have g4 : (k : Int) % sk.pub.curve.N =
        ((natOfBytes ((p.read h).drop sk.pub.curve.byteSize) + s' * sk.D : Nat) : Int) % sk.pub.curve.N := by
      have := congrArg (fun z => (z + (s' : Int) * sk.D) % sk.pub.curve.N) g3
      simpa using this
    have g5 : k % sk.pub.curve.N =
        (natOfBytes ((p.read h).drop sk.pub.curve.byteSize) + s' * sk.D) % sk.pub.curve.N := by
      exact_mod_cast g4
    rw [← g5, Nat.mod_eq_of_lt hkN]

/-- A proof whose second half agrees modulo the group order with the one that `Vrf` made satisfies the
verification equation. -/
theorem accepts_reduced {E : VRF.Ext} (hE : E.Lawful) {t : Alg} {sk : ECPriv} (hk : ECPair E.k1name sk)
    {msg : Bytes} (hm : msg.length < 2 ^ 59) {nonce : Res Bytes} {draws : Nat → List Nat} {fuel : Nat}
    {h₀ h₁ : Heap} {spare : Bytes} {v₀ p₀ : Slice}
    (hmade : vrf E h₀ (.ec t sk) msg nonce draws fuel spare = some (.ok (h₁, v₀, p₀)))
    {pb : Bytes} (hlen : pb.length = 2 * sk.pub.curve.byteSize)
    (hred : reduceProof sk.pub.curve pb = p₀.read h₁)
    [Fact sk.pub.curve.P.Prime] (G : Pt sk.pub.curve (curveA E.k1name sk.pub.curve))
    (hG : xy G = (sk.pub.curve.Gx, sk.pub.curve.Gy)) :
    ∃ a, VrfHash E.k1name sk.pub.curve a ∧ VRF.Accepts (E.hash a) G (sk.D • G) msg (v₀.read h₁) pb ∧
      sk.D • G ≠ 0 ∧ sk.pub = ⟨sk.pub.curve, (xy (sk.D • G)).1, (xy (sk.D • G)).2⟩ := by
  have hg := good_of_mem E.k1name hE.k1name _ hk.1
  obtain ⟨a, rb, H, s, Hp, ha, rfl, v1, v2, hsk, hD, q0, q1, q2, q3, q4, q5, q6⟩ := vrf_made hE hk hm hmade G hG
  have hQ : sk.D • G ≠ 0 := by rw [Ne, hg.smul_eq_zero_iff (hg.G_ne_zero hG)]; exact hD
  have hpub : sk.pub = ⟨sk.pub.curve, (xy (sk.D • G)).1, (xy (sk.D • G)).2⟩ := by
    conv_lhs => rw [hsk]
  have hN := (Signature.byteSize_bound hk.1).1
  have hN0 := hg.order_prime.pos
  have hs : s < sk.pub.curve.N := by obtain ⟨i, rfl, hlt, -⟩ := hashToInt_spec q4; omega
  refine ⟨a, ha, ?_, hQ, hpub⟩
  rw [q5] at hred
  unfold reduceProof at hred
  obtain ⟨g1, g2⟩ := List.append_inj hred (by rw [List.length_take, beFix_length]; omega)
  have g2 := congrArg natOfBytes g2
  have hlt' := Nat.mod_lt (natOfBytes (pb.drop sk.pub.curve.byteSize)) hN0
  have hN0' : (0 : Int) < sk.pub.curve.N := by exact_mod_cast hN0
  have hlt := Int.emod_lt_of_pos ((natOfBytes rb : Int) - (s : Int) * sk.D) hN0'
  rw [natOfBytes_beFix_of_lt (by omega), natOfBytes_beFix_of_lt (by omega)] at g2
  have hcom : ∀ P : Pt sk.pub.curve (curveA E.k1name sk.pub.curve),
      natOfBytes (pb.drop sk.pub.curve.byteSize) • P + s • (sk.D • P) = natOfBytes rb • P := by
    intro P
    rw [← Affine.mod_smul hg.card P (natOfBytes (pb.drop sk.pub.curve.byteSize)), g2, commit_eq hg]
  refine ⟨hlen, sk.D • Hp, Hp, H.1, H.2, ?_, q6, q1, q3, ?_⟩
  · rw [Ne, hg.smul_eq_zero_iff q2]; exact hD
  · rw [g1, natOfBytes_beFix_of_lt (by omega), hcom, hcom]
    exact hashToInt_spec q4

/-- **C111** Conversely, every proof whose second half agrees modulo the group order with the one that `Vrf` made
is accepted, whenever `Verify` returns. -/
theorem C111_made_is_accepted (E : VRF.Ext) (hE : E.Lawful) (t : Alg) (sk : ECPriv) (hk : ECPair E.k1name sk)
    (msg : Bytes) (hm : msg.length < 2 ^ 59) (nonce : Res Bytes) (draws : Nat → List Nat) (fuel : Nat)
    (h₀ h₁ : Heap) (spare : Bytes) (v₀ p₀ : Slice)
    (hmade : vrf E h₀ (.ec t sk) msg nonce draws fuel spare = some (.ok (h₁, v₀, p₀)))
    (h : Heap) (v p : Slice) (hv : v.Valid h) (hp : p.Valid h) (hsame : v.read h = v₀.read h₁)
    (hlen : p.len = 2 * sk.pub.curve.byteSize) (hred : reduceProof sk.pub.curve (p.read h) = p₀.read h₁)
    (draws' : Nat → List Nat) (fuel' : Nat) (r : Res (Heap × Bool))
    (hr : verify E h (.ec t sk.pub) msg v p draws' fuel' = some r) : ∃ h', r = .ok (h', true) := by
  have hg := good_of_mem E.k1name hE.k1name _ hk.1
  have := hg.fact
  obtain ⟨G, hG⟩ := hg.exists_G
  obtain ⟨a, ha, hacc, hQ, hpub⟩ := accepts_reduced hE hk hm hmade ((read_length h p hp).trans hlen) hred G hG
  rw [hpub] at hr
  exact ((C47_verify_iff E hE t _ a ha G (sk.D • G) hG hQ h msg hm v p hv hp draws').1 fuel' r hr).2
    (by rw [hsame]; exact hacc)

/-- A proof with the group order added to its second half. -/
def otherProof (c : Curve) (p : Bytes) : Bytes :=
  p.take c.byteSize ++ beFix c.byteSize (natOfBytes (p.drop c.byteSize) + c.N)

/-- **C111** (why the claim needs the reduction) Anyone can alter a proof whose second half is small enough: with
the group order added to it the proof is accepted for the same value, although `Vrf` never returns it. -/
theorem C111_altered_proof (E : VRF.Ext) (hE : E.Lawful) (t : Alg) (sk : ECPriv) (hk : ECPair E.k1name sk)
    (hc : sk.pub.curve ≠ Curves.p224)
    (msg : Bytes) (hm : msg.length < 2 ^ 59) (nonce : Res Bytes) (draws : Nat → List Nat) (fuel : Nat)
    (h₀ h₁ : Heap) (spare : Bytes) (v₀ p₀ : Slice)
    (hmade : vrf E h₀ (.ec t sk) msg nonce draws fuel spare = some (.ok (h₁, v₀, p₀)))
    (hsmall : natOfBytes ((p₀.read h₁).drop sk.pub.curve.byteSize) + sk.pub.curve.N < 256 ^ sk.pub.curve.byteSize)
    (h : Heap) (v p : Slice) (hv : v.Valid h) (hp : p.Valid h) (hsame : v.read h = v₀.read h₁)
    (hp' : p.read h = otherProof sk.pub.curve (p₀.read h₁)) (draws' : Nat → List Nat) :
    (∃ fuel' h', verify E h (.ec t sk.pub) msg v p draws' fuel' = some (.ok (h', true))) ∧
    ∀ nonce' draws' fuel' h₂ spare' h₃ v' q,
      vrf E h₂ (.ec t sk) msg nonce' draws' fuel' spare' = some (.ok (h₃, v', q)) → q.read h₃ ≠ p.read h := by
  have hg := good_of_mem E.k1name hE.k1name _ hk.1
  have := hg.fact
  obtain ⟨G, hG⟩ := hg.exists_G
  obtain ⟨l1, -, -, l4⟩ := C49_proof_range E hE t sk hk msg hm h₀ nonce draws fuel spare h₁ v₀ p₀ hmade
  have lt : ((p₀.read h₁).take sk.pub.curve.byteSize).length = sk.pub.curve.byteSize := by
    rw [List.length_take]; omega
  have ld : ((p₀.read h₁).drop sk.pub.curve.byteSize).length = sk.pub.curve.byteSize := by
    rw [List.length_drop]; omega
  constructor
  · obtain ⟨a, ha, hacc, hQ, hpub⟩ := accepts_reduced hE hk hm hmade (pb := p.read h)
      (by rw [hp', otherProof, List.length_append, lt, beFix_length]; omega)
      (by
        rw [hp', otherProof, reduceProof, List.take_left' lt, List.drop_left' lt, natOfBytes_beFix_of_lt hsmall,
          Nat.add_mod_right, Nat.mod_eq_of_lt l4]
        have := beFix_natOfBytes ((p₀.read h₁).drop sk.pub.curve.byteSize)
        rw [ld] at this
        rw [this, List.take_append_drop]) G hG
    rw [hpub]
    exact (C47_verify_iff E hE t _ a ha G (sk.D • G) hG hQ h msg hm v p hv hp draws').2 (by rw [hsame]; exact hacc) hc
  · intro nonce' draws' fuel' h₂ spare' h₃ v' q hq e
    obtain ⟨-, -, -, m4⟩ := C49_proof_range E hE t sk hk msg hm h₂ nonce' draws' fuel' spare' h₃ v' q hq
    rw [e, hp', otherProof, List.drop_left' lt, natOfBytes_beFix_of_lt hsmall] at m4
    omega

/-! ## Cases that meet the hypotheses -/

/-- The reference instance with the zero hash for long inputs, so that all challenges are 1. -/
def refVrf0 : VRF.Ext :=
  { refVrf with extHash := fun a m => if m.length < 150 then refHash a m else zeros (size a) }

theorem refVrf0_lawful : refVrf0.Lawful :=
  { refVrf_lawful with
    size := by
      intro a m
      show (if m.length < 150 then refHash a m else zeros (size a)).length = size a
      split_ifs
      · exact refVrf_lawful.size a m
      · simp [zeros] }

/-- A key, a message and a random number for which the second half of the proof is small; so the altered proof is
accepted (hypotheses of all three theorems). -/
example : ∃ (h₀ h₁ h h' : Heap) (v₀ p₀ v p : Slice) (fuel : Nat),
    ECPair refVrf0.k1name (keyOn Curves.p256 2) ∧
    vrf refVrf0 h₀ (.ec .ecdsa (keyOn Curves.p256 2)) [0x61] (.ok [7]) (fun _ => []) 2 [] = some (.ok (h₁, v₀, p₀)) ∧
    v.Valid h ∧ p.Valid h ∧ v.read h = v₀.read h₁ ∧ p.read h ≠ p₀.read h₁ ∧
    verify refVrf0 h (.ec .ecdsa (keyOn Curves.p256 2).pub) [0x61] v p (fun _ => []) fuel = some (.ok (h', true)) := by
  have hk : ECPair refVrf0.k1name (keyOn Curves.p256 2) := keyOn_pair _ (by decide) 2 (by decide +kernel)
  have hcc : (keyOn Curves.p256 2).pub.curve = Curves.p256 := rfl
  have hc : (match vrf refVrf0 ⟨fun _ => [], 0⟩ (.ec .ecdsa (keyOn Curves.p256 2)) [0x61] (.ok [7])
        (fun _ => []) 2 [] with
      | some (.ok (h1, v, p)) =>
          decide (natOfBytes ((p.read h1).drop Curves.p256.byteSize) + Curves.p256.N < 256 ^ Curves.p256.byteSize)
      | _ => false) = true := by decide +kernel
  split at hc
  next h1 v p hv =>
    have hsm := of_decide_eq_true hc
    refine ⟨⟨fun _ => [], 0⟩, h1, ⟨fun i => if i = 0 then v.read h1 else otherProof Curves.p256 (p.read h1), 2⟩, ?_⟩
    have hr1 : Slice.read ⟨fun i => if i = 0 then v.read h1 else otherProof Curves.p256 (p.read h1), 2⟩
        ⟨0, 0, (v.read h1).length, (v.read h1).length⟩ = v.read h1 := by simp [Slice.read]
    have hr2 : Slice.read ⟨fun i => if i = 0 then v.read h1 else otherProof Curves.p256 (p.read h1), 2⟩
        ⟨1, 0, (otherProof Curves.p256 (p.read h1)).length, (otherProof Curves.p256 (p.read h1)).length⟩ =
        otherProof Curves.p256 (p.read h1) := by simp [Slice.read]
    have hv1 : Slice.Valid ⟨fun i => if i = 0 then v.read h1 else otherProof Curves.p256 (p.read h1), 2⟩
        ⟨0, 0, (v.read h1).length, (v.read h1).length⟩ := ⟨by simp, le_refl _, by simp⟩
    have hv2 : Slice.Valid ⟨fun i => if i = 0 then v.read h1 else otherProof Curves.p256 (p.read h1), 2⟩
        ⟨1, 0, (otherProof Curves.p256 (p.read h1)).length, (otherProof Curves.p256 (p.read h1)).length⟩ :=
      ⟨by simp, le_refl _, by simp⟩
    obtain ⟨⟨fuel, h', hacc⟩, hne⟩ := C111_altered_proof refVrf0 refVrf0_lawful .ecdsa (keyOn Curves.p256 2) hk
      (by rw [hcc]; decide) [0x61] (by decide) _ _ _ _ h1 _ v p hv hsm _ _ _ hv1 hv2 hr1 hr2 (fun _ => [])
    exact ⟨h', v, p, _, _, fuel, hk, hv, hv1, hv2, hr1, (hne _ _ _ _ _ _ _ _ hv).symm, hacc⟩
  next => cases hc

end Verif.Props
