import Verif.Lemmas.VRF
import Verif.Lemmas.RefVRF
import Verif.Lemmas.AES
/-!
# Properties of package vrf (C45-C49, C73, C74)
-/
namespace Verif.Props
open Verif Verif.Spec Verif.Keypair Verif.VRF
open Verif.AES (read_append read_length)
open Verif.Signature (ECPair HashAlg keyOn keyOn_pair)

/-! ## What the heap holds after `Vrf` -/

theorem vrf_returned {E : VRF.Ext} {h : Heap} {t : Alg} {sk : ECPriv} {msg : Bytes} {nonce : Res Bytes}
    {draws : Nat → List Nat} {fuel : Nat} {spare : Bytes} {h1 : Heap} {v p : Slice}
    (hr : vrf E h (.ec t sk) msg nonce draws fuel spare = some (.ok (h1, v, p))) :
    ∃ a rb proof, getHash E sk.pub.curve = some a ∧ nonce = .ok rb ∧
      evaluate E a sk msg (.ok rb) draws fuel = some (.ok proof) ∧
      h1 = (h.alloc (proof ++ spare)).1 ∧
      v = ⟨h.next, 2 * sk.pub.curve.byteSize, 2 * sk.pub.curve.byteSize + 1,
        (proof ++ spare).length - 2 * sk.pub.curve.byteSize⟩ ∧
      p = ⟨h.next, 0, 2 * sk.pub.curve.byteSize, (proof ++ spare).length⟩ := by
  unfold vrf at hr
  simp only at hr
  cases ha : getHash E sk.pub.curve with
  | none => rw [ha] at hr; cases hr
  | some a =>
    rw [ha] at hr
    simp only at hr
    obtain ⟨r, he, hq⟩ := Option.map_eq_some_iff.1 hr
    cases r with
    | err m => cases hq
    | panic m => cases hq
    | ok proof =>
      have hn : ∃ rb, nonce = .ok rb := by
        unfold evaluate at he
        simp only at he
        split_ifs at he with hsz
        · cases he
        · cases nonce with
          | ok rb => exact ⟨rb, rfl⟩
          | err m => cases he
          | panic m => cases he
      obtain ⟨rb, rfl⟩ := hn
      refine ⟨a, rb, proof, rfl, rfl, he, ?_⟩
      simp only [Res.map, Res.ok.injEq, Prod.mk.injEq] at hq
      obtain ⟨r1, r2, r3⟩ := hq
      refine ⟨r1.symm, ?_, ?_⟩
      · rw [← r2]
        simp only [Heap.alloc, Slice.sub, Slice.mk.injEq, Nat.zero_add, true_and, and_true]
        omega
      · rw [← r3]
        simp [Heap.alloc, Slice.sub]

/-- The key pair, spelled out. -/
theorem pair_cases {E : VRF.Ext} (hE : E.Lawful) {sk : ECPriv} (hk : ECPair E.k1name sk)
    [Fact sk.pub.curve.P.Prime] : ∃ G : Pt sk.pub.curve (curveA E.k1name sk.pub.curve),
      xy G = (sk.pub.curve.Gx, sk.pub.curve.Gy) ∧ sk.D % sk.pub.curve.N ≠ 0 ∧
      sk = ⟨sk.D, sk.pub.curve, (xy (sk.D • G)).1, (xy (sk.D • G)).2⟩ := by
  obtain ⟨hc, -, hD, hQ⟩ := hk
  have hg := good_of_mem E.k1name hE.k1name _ hc
  obtain ⟨G, hG⟩ := hg.exists_G
  refine ⟨G, hG, hD, ?_⟩
  have := hQ G hG
  rw [← this]

/-- Everything about a successful call of `Vrf`. -/
theorem vrf_made {E : VRF.Ext} (hE : E.Lawful) {h : Heap} {t : Alg} {sk : ECPriv} (hk : ECPair E.k1name sk)
    {msg : Bytes} (hm : msg.length < 2 ^ 59) {nonce : Res Bytes}
    {draws : Nat → List Nat} {fuel : Nat} {spare : Bytes} {h1 : Heap} {v p : Slice}
    (hr : vrf E h (.ec t sk) msg nonce draws fuel spare = some (.ok (h1, v, p)))
    [Fact sk.pub.curve.P.Prime] (G : Pt sk.pub.curve (curveA E.k1name sk.pub.curve))
    (hG : xy G = (sk.pub.curve.Gx, sk.pub.curve.Gy)) :
    ∃ a rb H s, ∃ Hp : Pt sk.pub.curve (curveA E.k1name sk.pub.curve),
      VrfHash E.k1name sk.pub.curve a ∧ nonce = .ok rb ∧ v.Valid h1 ∧ p.Valid h1 ∧
      sk = ⟨sk.D, sk.pub.curve, (xy (sk.D • G)).1, (xy (sk.D • G)).2⟩ ∧ sk.D % sk.pub.curve.N ≠ 0 ∧
      hashToCurve E a sk.pub.curve (enc sk.pub.curve (xy (sk.D • G)) ++ msg) draws = some (some H) ∧
      IsHashPoint (E.hash a) sk.pub.curve (curveA E.k1name sk.pub.curve)
        (enc sk.pub.curve (xy (sk.D • G)) ++ msg) H.1 H.2 ∧
      Hp ≠ 0 ∧ xy Hp = (H.1 % sk.pub.curve.P, H.2) ∧
      hashToInt E a sk.pub.curve (transcript sk.pub.curve H (xy (sk.D • G)) (xy (sk.D • Hp))
        (xy (natOfBytes rb • G)) (xy (natOfBytes rb • Hp))) fuel = some s ∧
      p.read h1 = beFix sk.pub.curve.byteSize s ++
        beFix sk.pub.curve.byteSize ((((natOfBytes rb : Nat) : Int) - (s : Int) * sk.D) % sk.pub.curve.N).toNat ∧
      v.read h1 = enc sk.pub.curve (xy (sk.D • Hp)) := by
  obtain ⟨a, rb, proof, ha, rfl, he, rfl, rfl, rfl⟩ := vrf_returned hr
  obtain ⟨G', hG', hD, hsk⟩ := pair_cases hE hk
  have hg := good_of_mem E.k1name hE.k1name _ hk.1
  have hGG : G' = G := Affine.xy_inj hg.ok (hG'.trans hG.symm)
  subst hGG
  have hv := (getHash_iff hE _ hk.1 a).1 ha
  generalize hc : sk.pub.curve = c at *
  generalize hd : sk.D = D at *
  subst hsk
  obtain ⟨H, Hp, s, q0, q1, q2, q3, q4, q5⟩ := (evaluate_spec hE hv hG D hD msg hm rb draws).1 fuel proof he
  have hl1 : (beFix c.byteSize s ++
      beFix c.byteSize ((((natOfBytes rb : Nat) : Int) - (s : Int) * D) % c.N).toNat).length = 2 * c.byteSize := by
    rw [List.length_append, beFix_length, beFix_length]; omega
  have hl2 := enc_length c (xy (D • Hp))
  refine ⟨a, rb, H, s, Hp, hv, rfl, ?_, ?_, rfl, hD, q0, q1, q2, q3, q4, ?_, ?_⟩
  · refine ⟨by simp [Heap.alloc], ?_, ?_⟩ <;> simp only [Heap.alloc, if_true, q5, List.length_append] at * <;> omega
  · refine ⟨by simp [Heap.alloc], ?_, ?_⟩ <;> simp only [Heap.alloc, if_true, q5, List.length_append] at * <;> omega
  · simp only [Slice.read, Heap.alloc, if_true, List.drop_zero]
    rw [q5, List.append_assoc, List.take_left' hl1]
  · simp only [Slice.read, Heap.alloc, if_true]
    rw [q5, List.append_assoc, List.drop_left' hl1, List.take_left' hl2]

/-- `Verify` in terms of the bytes of its arguments. -/
theorem verify_bytes {E : VRF.Ext} {h : Heap} {t : Alg} {pk : ECPub} {a : HashAlg}
    (ha : getHash E pk.curve = some a) {msg : Bytes} {v p : Slice} (hp : p.Valid h)
    {draws : Nat → List Nat} {fuel : Nat} :
    verify E h (.ec t pk) msg v p draws fuel =
      if v.len ≠ pk.curve.byteSize * 2 + 1 ∨ p.len ≠ pk.curve.byteSize * 2 then some (.ok (h, false))
      else (proofToHash E a pk msg (p.read h ++ v.read h) draws fuel).map fun r =>
        match r with
        | .ok _ => .ok ((h.append p (v.read h)).1, true)
        | .err _ => .ok ((h.append p (v.read h)).1, false)
        | .panic m => .panic m := by
  unfold verify
  simp only [ha]
  rw [read_append h p (v.read h) hp]
  rfl

/-! ## C47 -/

/-- **C47** `Verify` with a public key `Q` on a supported curve. When it returns, it returns true exactly
if the verification equation holds for the bytes of the VRF value and the proof. It accepts whatever
satisfies the equation: with all random draws (except on P-224, whose square roots are randomized) some
number of iterations suffices. -/
theorem C47_verify_iff (E : VRF.Ext) (hE : E.Lawful) (t : Alg) (c : Curve) (a : HashAlg)
    (hv : VrfHash E.k1name c a) [Fact c.P.Prime] (G Q : Pt c (curveA E.k1name c)) (hG : xy G = (c.Gx, c.Gy))
    (hQ : Q ≠ 0) (h : Heap) (msg : Bytes) (hm : msg.length < 2 ^ 59) (v p : Slice) (hv' : v.Valid h)
    (hp : p.Valid h) (draws : Nat → List Nat) :
    (∀ fuel r, verify E h (.ec t ⟨c, (xy Q).1, (xy Q).2⟩) msg v p draws fuel = some r →
      ((∃ h', r = .ok (h', true)) ↔ VRF.Accepts (E.hash a) G Q msg (v.read h) (p.read h))) ∧
    (VRF.Accepts (E.hash a) G Q msg (v.read h) (p.read h) → c ≠ Curves.p224 →
      ∃ fuel h', verify E h (.ec t ⟨c, (xy Q).1, (xy Q).2⟩) msg v p draws fuel = some (.ok (h', true))) := by
  have ha := (getHash_iff hE c hv.mem a).2 hv
  have hlv := read_length h v hv'
  have hlp := read_length h p hp
  simp only [verify_bytes (pk := ⟨c, (xy Q).1, (xy Q).2⟩) ha hp]
  by_cases hl : v.len ≠ c.byteSize * 2 + 1 ∨ p.len ≠ c.byteSize * 2
  · simp only [if_pos hl]
    have hno : ¬ VRF.Accepts (E.hash a) G Q msg (v.read h) (p.read h) := by
      rintro ⟨h1, V, Hp, hx, hy, h2, h3, -⟩
      have := enc_length c (xy V)
      rw [← h3, hlv] at this
      rw [hlp] at h1
      omega
    refine ⟨fun fuel r hr => ?_, fun h => absurd h hno⟩
    rw [← Option.some.inj hr]
    constructor
    · rintro ⟨h', e⟩; simp at e
    · exact fun h => absurd h hno
  · simp only [if_neg hl]
    obtain ⟨s1, s2, s3, s4, s5⟩ := proofToHash_spec hE hv.fit hG hQ msg (v.read h) (p.read h) hm (by omega) (by omega) draws
    refine ⟨fun fuel r hr => ?_, fun hacc hne => ?_⟩
    · obtain ⟨r', hr', hr⟩ := Option.map_eq_some_iff.1 hr
      cases r' with
      | ok i =>
        have := (s1 fuel i hr').2
        exact ⟨fun _ => this, fun _ => ⟨_, hr.symm⟩⟩
      | err m =>
        have := s2 fuel m hr'
        rw [← hr]
        exact ⟨fun ⟨h', e⟩ => (by simp at e), fun h => absurd h this⟩
      | panic m =>
        have := (s3 fuel m hr').2
        rw [← hr]
        refine ⟨fun ⟨h', e⟩ => (by simp at e), fun hA => ?_⟩
        obtain ⟨-, V, Hp, hx, hy, -, -, h3, -⟩ := hA
        exact absurd ⟨hx, hy, h3⟩ this
    · obtain ⟨fuel, i, hi⟩ := s5 hacc hne
      exact ⟨fuel, _, by rw [hi]; rfl⟩

theorem enc_inj {c : Curve} {a : Int} (hg : GoodCurve c a) (hfit : c.P ≤ 256 ^ c.byteSize) [Fact c.P.Prime]
    {A B : Pt c a} (h : enc c (xy A) = enc c (xy B)) : A = B := by
  obtain ⟨a1, a2⟩ := xy_fits hg hfit A
  obtain ⟨b1, b2⟩ := xy_fits hg hfit B
  unfold enc sec1Uncompressed at h
  obtain ⟨e1, e2⟩ := List.append_inj (List.cons.inj h).2 (by rw [beFix_length, beFix_length])
  apply Affine.xy_inj hg.ok
  have f1 := congrArg natOfBytes e1
  have f2 := congrArg natOfBytes e2
  rw [natOfBytes_beFix_of_lt a1, natOfBytes_beFix_of_lt b1] at f1
  rw [natOfBytes_beFix_of_lt a2, natOfBytes_beFix_of_lt b2] at f2
  exact Prod.ext f1 f2

/-- **C47** Why a false VRF value cannot be proved: if the same value, public key `D G`, message and
commitments (the bytes that are hashed to the challenge) are accepted for two different challenges, by two
hash functions `Hs` and `Hs'` that agree on the hash point, then the value is `D` times the hash point. So for
each transcript at most one challenge makes a false value acceptable. -/
theorem C47_special_soundness (c : Curve) (a : Int) (hg : GoodCurve c a) (hodd : c.P % 2 = 1)
    (hfit : c.P ≤ 256 ^ c.byteSize) [Fact c.P.Prime] (G : Pt c a) (hG : xy G = (c.Gx, c.Gy)) (D : Nat)
    (Hs Hs' : Bytes → Bytes) (msg vrf nizk nizk' : Bytes) (hx hy : Nat)
    (hH : IsHashPoint Hs c a (enc c (xy (D • G)) ++ msg) hx hy)
    (hH' : IsHashPoint Hs' c a (enc c (xy (D • G)) ++ msg) hx hy)
    (h1 : VRF.Accepts Hs G (D • G) msg vrf nizk) (h2 : VRF.Accepts Hs' G (D • G) msg vrf nizk')
    (hT : ∀ V Hp : Pt c a, vrf = enc c (xy V) → xy Hp = (hx % c.P, hy) →
      transcript c (hx, hy) (xy (D • G)) (xy V)
        (xy (natOfBytes (nizk.drop c.byteSize) • G + natOfBytes (nizk.take c.byteSize) • (D • G)))
        (xy (natOfBytes (nizk.drop c.byteSize) • Hp + natOfBytes (nizk.take c.byteSize) • V)) =
      transcript c (hx, hy) (xy (D • G)) (xy V)
        (xy (natOfBytes (nizk'.drop c.byteSize) • G + natOfBytes (nizk'.take c.byteSize) • (D • G)))
        (xy (natOfBytes (nizk'.drop c.byteSize) • Hp + natOfBytes (nizk'.take c.byteSize) • V)))
    (hne : nizk.take c.byteSize ≠ nizk'.take c.byteSize) :
    ∃ Hp : Pt c a, xy Hp = (hx % c.P, hy) ∧ vrf = enc c (xy (D • Hp)) := by
  obtain ⟨hl, V, Hp, hx1, hy1, hV, hvv, k1, k2, i, hs, hsl, -⟩ := h1
  obtain ⟨hl', -, -, -, -, -, -, -, -, i', hs', hsl', -⟩ := h2
  obtain ⟨rfl, rfl⟩ := hashPoint_unique hg hodd k1 hH
  refine ⟨Hp, k2, ?_⟩
  have hT := hT V Hp hvv k2
  unfold transcript at hT
  obtain ⟨hT, hB⟩ := List.append_inj' hT (by rw [enc_length, enc_length])
  obtain ⟨-, hA⟩ := List.append_inj' hT (by rw [enc_length, enc_length])
  have hA := enc_inj hg hfit hA
  have hB := enc_inj hg hfit hB
  have hne : natOfBytes (nizk.take c.byteSize) ≠ natOfBytes (nizk'.take c.byteSize) := by
    intro e
    apply hne
    have f1 := beFix_natOfBytes (nizk.take c.byteSize)
    have f2 := beFix_natOfBytes (nizk'.take c.byteSize)
    rw [List.length_take, hl] at f1
    rw [List.length_take, hl'] at f2
    rw [← f1, ← f2, e]
  set s := natOfBytes (nizk.take c.byteSize)
  set s' := natOfBytes (nizk'.take c.byteSize)
  set t := natOfBytes (nizk.drop c.byteSize)
  set t' := natOfBytes (nizk'.drop c.byteSize)
  have hG0 := hg.G_ne_zero hG
  obtain ⟨w, -, hw⟩ := hg.exists_smul hG0 V
  obtain ⟨x, -, hxw⟩ := hg.exists_smul hG0 Hp
  subst hw
  subst hxw
  haveI : Fact c.N.Prime := ⟨hg.order_prime⟩
  simp only [← mul_smul, ← add_smul] at hA hB
  rw [hg.smul_eq_iff hG0] at hA hB
  rw [← ZMod.natCast_eq_natCast_iff'] at hA hB
  push_cast at hA hB
  have hss : (s : ZMod c.N) - s' ≠ 0 := by
    intro e
    have := sub_eq_zero.1 e
    rw [ZMod.natCast_eq_natCast_iff', Nat.mod_eq_of_lt hsl, Nat.mod_eq_of_lt hsl'] at this
    exact hne this
  have hwx : (w : ZMod c.N) = D * x := by
    apply mul_left_cancel₀ hss
    linear_combination hB - (x : ZMod c.N) * hA
  rw [hvv]
  congr 2
  rw [← mul_smul, hg.smul_eq_iff hG0, ← ZMod.natCast_eq_natCast_iff']
  push_cast
  exact hwx

/-! ## C45 -/

/-- **C45** What `Vrf` returns for a key pair and a message, whatever the nonce, is accepted by `Verify`:
immediately (with the same draws and number of iterations), and whenever `Verify` returns for slices with
the same bytes. -/
theorem C45_complete (E : VRF.Ext) (hE : E.Lawful) (t : Alg) (sk : ECPriv) (hk : ECPair E.k1name sk)
    (msg : Bytes) (hm : msg.length < 2 ^ 59) (h : Heap) (nonce : Res Bytes) (draws : Nat → List Nat)
    (fuel : Nat) (spare : Bytes) (h1 : Heap) (v p : Slice)
    (hr : vrf E h (.ec t sk) msg nonce draws fuel spare = some (.ok (h1, v, p))) :
    (∃ h2, verify E h1 (.ec t sk.pub) msg v p draws fuel = some (.ok (h2, true))) ∧
    ∀ (h2 : Heap) (v' p' : Slice), v'.Valid h2 → p'.Valid h2 → v'.read h2 = v.read h1 → p'.read h2 = p.read h1 →
      ∀ draws' fuel' r, verify E h2 (.ec t sk.pub) msg v' p' draws' fuel' = some r →
        ∃ h3, r = .ok (h3, true) := by
  have hg := good_of_mem E.k1name hE.k1name _ hk.1
  haveI := hg.fact
  obtain ⟨G, hG⟩ := hg.exists_G
  obtain ⟨a, rb, H, s, Hp, hv, rfl, v1, v2, hsk, hD, q0, q1, q2, q3, q4, q5, q6⟩ := vrf_made hE hk hm hr G hG
  have hl1 := read_length h1 v v1
  have hl2 := read_length h1 p v2
  have hacc : VRF.Accepts (E.hash a) G (sk.D • G) msg (v.read h1) (p.read h1) := by
    rw [q5, q6]
    exact accepts_made hg (Signature.byteSize_bound hk.1).1 hD q1 q2 q3 (hashToInt_spec q4)
  have hpub : sk.pub = ⟨sk.pub.curve, (xy (sk.D • G)).1, (xy (sk.D • G)).2⟩ := by
    conv_lhs => rw [hsk]
  have hQ : sk.D • G ≠ 0 := by rw [Ne, hg.smul_eq_zero_iff (hg.G_ne_zero hG)]; exact hD
  constructor
  · have hmade := proofToHash_made hE hv hG hD hm q0 q2 q3 q4
    rw [verify_bytes ((getHash_iff hE _ hv.mem a).2 hv) v2, if_neg, q5, q6]
    · exact ⟨_, congrArg (Option.map _)
        ((congrArg (fun k => proofToHash E a k msg _ draws fuel) hpub).trans hmade)⟩
    · rw [← hl1, ← hl2, q5, q6, enc_length, List.length_append, beFix_length, beFix_length]
      omega
  · intro h2 v' p' w1 w2 e1 e2 draws' fuel' r hr'
    rw [hpub] at hr'
    refine ((C47_verify_iff E hE t _ a hv G (sk.D • G) hG hQ h2 msg hm v' p' w1 w2 draws').1 fuel' r hr').2 ?_
    rw [e1, e2]; exact hacc

/-! ## C46 -/

/-- **C46** The value that `Vrf` returns encodes the private scalar times the point that public key and
message hash to. -/
theorem C46_value (E : VRF.Ext) (hE : E.Lawful) (t : Alg) (sk : ECPriv) (hk : ECPair E.k1name sk)
    (msg : Bytes) (hm : msg.length < 2 ^ 59) (h : Heap) (nonce : Res Bytes) (draws : Nat → List Nat)
    (fuel : Nat) (spare : Bytes) (h1 : Heap) (v p : Slice)
    (hr : vrf E h (.ec t sk) msg nonce draws fuel spare = some (.ok (h1, v, p)))
    [Fact sk.pub.curve.P.Prime] :
    ∃ a hx hy, ∃ Hp : Pt sk.pub.curve (curveA E.k1name sk.pub.curve), VrfHash E.k1name sk.pub.curve a ∧
      IsHashPoint (E.hash a) sk.pub.curve (curveA E.k1name sk.pub.curve)
        (enc sk.pub.curve (sk.pub.x, sk.pub.y) ++ msg) hx hy ∧
      xy Hp = (hx % sk.pub.curve.P, hy) ∧ v.read h1 = enc sk.pub.curve (xy (sk.D • Hp)) := by
  have hg := good_of_mem E.k1name hE.k1name _ hk.1
  obtain ⟨G, hG⟩ := hg.exists_G
  obtain ⟨a, rb, H, s, Hp, hv, rfl, v1, v2, hsk, hD, q0, q1, q2, q3, q4, q5, q6⟩ := vrf_made hE hk hm hr G hG
  have hQ := hk.2.2.2 G hG
  exact ⟨a, H.1, H.2, Hp, hv, by rw [hQ]; exact q1, q3, q6⟩

/-- **C46** The value does not depend on the nonce, the random draws, the state of the heap or the label of
the key: two calls of `Vrf` for the same key and message that return give the same bytes. -/
theorem C46_deterministic (E : VRF.Ext) (hE : E.Lawful) (t t' : Alg) (sk : ECPriv) (hk : ECPair E.k1name sk)
    (msg : Bytes) (hm : msg.length < 2 ^ 59) (h h' : Heap) (nonce nonce' : Res Bytes)
    (draws draws' : Nat → List Nat) (fuel fuel' : Nat) (spare spare' : Bytes) (h1 h1' : Heap) (v p v' p' : Slice)
    (hr : vrf E h (.ec t sk) msg nonce draws fuel spare = some (.ok (h1, v, p)))
    (hr' : vrf E h' (.ec t' sk) msg nonce' draws' fuel' spare' = some (.ok (h1', v', p'))) :
    v.read h1 = v'.read h1' := by
  have hg := good_of_mem E.k1name hE.k1name _ hk.1
  haveI := hg.fact
  obtain ⟨a, hx, hy, Hp, e1, e2, e3, e4⟩ := C46_value E hE t sk hk msg hm h nonce draws fuel spare h1 v p hr
  obtain ⟨a', hx', hy', Hp', e1', e2', e3', e4'⟩ :=
    C46_value E hE t' sk hk msg hm h' nonce' draws' fuel' spare' h1' v' p' hr'
  have ea : a = a' := by
    have := (getHash_iff hE _ hk.1 a).2 e1
    rw [(getHash_iff hE _ hk.1 a').2 e1'] at this
    exact (Option.some.inj this).symm
  subst ea
  obtain ⟨f1, f2⟩ := hashPoint_unique hg (supported_goodField E.k1name _ hk.1).odd e2 e2'
  have : Hp = Hp' := Affine.xy_inj hg.ok (by rw [e3, e3', f1, f2])
  rw [e4, e4', this]

/-! ## C48 -/

theorem verify_heap {E : VRF.Ext} {h : Heap} {t : Alg} {pk : ECPub} {msg : Bytes} {v p : Slice}
    {draws : Nat → List Nat} {fuel : Nat} {h2 : Heap} {b : Bool}
    (hr : verify E h (.ec t pk) msg v p draws fuel = some (.ok (h2, b))) :
    (h2 = h ∧ ¬ (v.len = 2 * pk.curve.byteSize + 1 ∧ p.len = 2 * pk.curve.byteSize)) ∨
    (h2 = (h.append p (v.read h)).1 ∧ v.len = 2 * pk.curve.byteSize + 1 ∧ p.len = 2 * pk.curve.byteSize) := by
  unfold verify at hr
  simp only at hr
  cases ha : getHash E pk.curve with
  | none => rw [ha] at hr; cases hr
  | some a =>
    rw [ha] at hr
    simp only at hr
    by_cases hl : v.len ≠ pk.curve.byteSize * 2 + 1 ∨ p.len ≠ pk.curve.byteSize * 2
    · rw [if_pos hl] at hr
      left
      have := Option.some.inj hr
      simp only [Res.ok.injEq, Prod.mk.injEq] at this
      exact ⟨this.1.symm, by omega⟩
    · rw [if_neg hl] at hr
      right
      obtain ⟨r, -, hr⟩ := Option.map_eq_some_iff.1 hr
      cases r with
      | ok i => simp only [Res.ok.injEq, Prod.mk.injEq] at hr; exact ⟨hr.1.symm, by omega, by omega⟩
      | err m => simp only [Res.ok.injEq, Prod.mk.injEq] at hr; exact ⟨hr.1.symm, by omega, by omega⟩
      | panic m => cases hr

/-- **C48** (negation) `Verify` overwrites its caller's memory. After `Vrf` returned a value `v` and a proof
`p`, checking that proof together with any other candidate `v'` of the right length replaces the bytes of
`v` with those of `v'`, for every message and every key on the same curve. -/
theorem C48_overwrites (E : VRF.Ext) (hE : E.Lawful) (t t' : Alg) (sk : ECPriv) (hk : ECPair E.k1name sk)
    (msg msg' : Bytes) (hm : msg.length < 2 ^ 59) (h : Heap) (nonce : Res Bytes) (draws draws' : Nat → List Nat)
    (fuel fuel' : Nat) (spare : Bytes) (h1 : Heap) (v p : Slice)
    (hr : vrf E h (.ec t sk) msg nonce draws fuel spare = some (.ok (h1, v, p)))
    (pk : ECPub) (hpk : pk.curve = sk.pub.curve) (v' : Slice) (hv' : v'.Valid h1) (hlen : v'.len = v.len)
    (h2 : Heap) (b : Bool) (hr' : verify E h1 (.ec t' pk) msg' v' p draws' fuel' = some (.ok (h2, b))) :
    v.read h2 = v'.read h1 := by
  have hg := good_of_mem E.k1name hE.k1name _ hk.1
  haveI := hg.fact
  obtain ⟨G, hG⟩ := hg.exists_G
  obtain ⟨a, rb, H, s, Hp, hv, -, v1, v2, hsk, hD, q0, q1, q2, q3, q4, q5, q6⟩ := vrf_made hE hk hm hr G hG
  obtain ⟨a', rb', proof, -, -, -, rfl, rfl, rfl⟩ := vrf_returned hr
  have hl := read_length _ v' hv'
  simp only at hlen
  rcases verify_heap hr' with ⟨rfl, hn⟩ | ⟨rfl, -, -⟩
  · exact absurd ⟨by rw [hlen, hpk], by rw [hpk]⟩ hn
  · have hc1 := v1.2.1
    have hc2 := v1.2.2
    simp only at hc1 hc2
    unfold Heap.append
    rw [if_pos (by simp only [hl, hlen]; omega)]
    simp only [Nat.zero_add]
    have := read_store_self (h.alloc (proof ++ spare)).1 h.next (2 * sk.pub.curve.byteSize) (v'.read (h.alloc (proof ++ spare)).1)
      ((proof ++ spare).length - 2 * sk.pub.curve.byteSize) (by omega)
    rw [hl, hlen] at this
    exact this

/-- **C48** (what does hold) `Verify` leaves the bytes of the proof alone, and all other memory except for the
`len v` bytes behind the proof, if it has that much spare capacity. So the value is unchanged if it lies in
another array, or directly behind the proof as `Vrf` leaves it; nothing changes if the proof has no spare
capacity. -/
theorem C48_frame_partial (E : VRF.Ext) (t : Alg) (pk : ECPub) (h : Heap) (msg : Bytes) (v p : Slice)
    (hv : v.Valid h) (hp : p.Valid h) (draws : Nat → List Nat) (fuel : Nat) (h2 : Heap) (b : Bool)
    (hr : verify E h (.ec t pk) msg v p draws fuel = some (.ok (h2, b))) :
    p.read h2 = p.read h ∧
    (∀ i < h.next, (h2.mem i).length = (h.mem i).length ∧
      ∀ j, ¬ (i = p.arr ∧ p.len + v.len ≤ p.cap ∧ p.off + p.len ≤ j ∧ j < p.off + p.len + v.len) →
        (h2.mem i)[j]? = (h.mem i)[j]?) ∧
    (v.arr ≠ p.arr ∨ v.off = p.off + p.len → v.read h2 = v.read h) ∧
    (p.cap = p.len → ∀ i < h.next, h2.mem i = h.mem i) := by
  have hl := read_length h v hv
  have main : ∀ i < h.next, (h2.mem i).length = (h.mem i).length ∧
      ∀ j, ¬ (i = p.arr ∧ p.len + v.len ≤ p.cap ∧ p.off + p.len ≤ j ∧ j < p.off + p.len + v.len) →
        (h2.mem i)[j]? = (h.mem i)[j]? := by
    intro i hi
    rcases verify_heap hr with ⟨rfl, -⟩ | ⟨rfl, -, -⟩
    · exact ⟨rfl, fun _ _ => rfl⟩
    · unfold Heap.append
      split_ifs with hc
      · by_cases hia : i = p.arr
        · have hb : p.off + p.len + (v.read h).length ≤ (h.mem p.arr).length := by have := hp.2.2; omega
          subst hia
          simp only [store_mem_eq]
          refine ⟨splice_length _ _ _ hb, fun j hj => ?_⟩
          rw [getElem?_splice _ _ _ hb, if_neg]
          rw [hl] at hc ⊢
          intro hx
          exact hj ⟨True.intro, hc, hx.1, hx.2⟩
        · rw [store_mem_ne _ _ _ _ _ hia]
          exact ⟨rfl, fun _ _ => rfl⟩
      · have hne : i ≠ h.next := by omega
        simp [Heap.alloc, if_neg hne]
  refine ⟨?_, main, ?_, ?_⟩
  · unfold Slice.read
    apply List.ext_getElem?
    intro j
    rw [List.getElem?_take, List.getElem?_take]
    split_ifs with hj
    · rw [List.getElem?_drop, List.getElem?_drop]
      exact (main p.arr hp.1).2 _ (by omega)
    · rfl
  · intro hd
    have hva := main v.arr hv.1
    rcases hd with hd | hd
    · unfold Slice.read
      have : h2.mem v.arr = h.mem v.arr := List.ext_getElem? fun j => hva.2 j (fun hx => hd hx.1)
      rw [this]
    · by_cases hda : v.arr = p.arr
      · rcases verify_heap hr with ⟨rfl, -⟩ | ⟨rfl, -, -⟩
        · rfl
        · unfold Heap.append
          split_ifs with hc
          · have hb : p.off + p.len + (v.read h).length ≤ (h.mem p.arr).length := by have := hp.2.2; omega
            have := read_store_self h p.arr (p.off + p.len) (v.read h) v.cap hb
            rw [hl] at this
            have e : v = ⟨p.arr, p.off + p.len, v.len, v.cap⟩ := by cases v; simp_all
            rw [← e] at this
            exact this
          · unfold Slice.read
            have hne : v.arr ≠ h.next := by have := hv.1; omega
            simp only [Heap.alloc, if_neg hne]
      · unfold Slice.read
        have : h2.mem v.arr = h.mem v.arr := List.ext_getElem? fun j => hva.2 j (fun hx => hda hx.1)
        rw [this]
  · intro hcap i hi
    apply List.ext_getElem?
    intro j
    exact (main i hi).2 j (by omega)

/-! ## C49 -/

/-- **C49** The challenge that a byte string hashes to is in `[1, N-1]`, is the specified one, and is found
whenever there is one. -/
theorem C49_challenge_range (E : VRF.Ext) (a : HashAlg) (c : Curve) (b : Bytes) :
    (∀ fuel s, hashToInt E a c b fuel = some s → 1 ≤ s ∧ s ≤ c.N - 1 ∧ IsChallenge (E.hash a) c b s) ∧
    (∀ s, IsChallenge (E.hash a) c b s → ∃ fuel, hashToInt E a c b fuel = some s) := by
  refine ⟨fun fuel s h => ?_, fun s h => hashToInt_complete h⟩
  have hs := hashToInt_spec h
  refine ⟨?_, ?_, hs⟩ <;> obtain ⟨i, rfl, hlt, -⟩ := hs <;> omega

/-- **C49** The two numbers in a proof made by `Vrf`: a challenge in `[1, N-1]` and a response below `N`. -/
theorem C49_proof_range (E : VRF.Ext) (hE : E.Lawful) (t : Alg) (sk : ECPriv) (hk : ECPair E.k1name sk)
    (msg : Bytes) (hm : msg.length < 2 ^ 59) (h : Heap) (nonce : Res Bytes) (draws : Nat → List Nat)
    (fuel : Nat) (spare : Bytes) (h1 : Heap) (v p : Slice)
    (hr : vrf E h (.ec t sk) msg nonce draws fuel spare = some (.ok (h1, v, p))) :
    (p.read h1).length = 2 * sk.pub.curve.byteSize ∧
    1 ≤ natOfBytes ((p.read h1).take sk.pub.curve.byteSize) ∧
    natOfBytes ((p.read h1).take sk.pub.curve.byteSize) ≤ sk.pub.curve.N - 1 ∧
    natOfBytes ((p.read h1).drop sk.pub.curve.byteSize) < sk.pub.curve.N := by
  have hg := good_of_mem E.k1name hE.k1name _ hk.1
  haveI := hg.fact
  obtain ⟨G, hG⟩ := hg.exists_G
  obtain ⟨a, rb, H, s, Hp, hv, -, v1, v2, hsk, hD, q0, q1, q2, q3, q4, q5, q6⟩ := vrf_made hE hk hm hr G hG
  have hN := (Signature.byteSize_bound hk.1).1
  have hN0 : (0 : Int) < sk.pub.curve.N := by exact_mod_cast hg.order_prime.pos
  obtain ⟨r1, r2, -⟩ := (C49_challenge_range E a _ _).1 fuel s q4
  have ht := Int.emod_lt_of_pos (((natOfBytes rb : Nat) : Int) - (s : Int) * sk.D) hN0
  rw [q5, List.take_left' (beFix_length _ _), List.drop_left' (beFix_length _ _),
    natOfBytes_beFix_of_lt (by omega), natOfBytes_beFix_of_lt (by omega)]
  refine ⟨by rw [List.length_append, beFix_length, beFix_length]; omega, r1, r2, by omega⟩

/-! ## C73 -/

/-- **C73** The keys that `ValidatePrivateKey` and `ValidatePublicKey` accept are the ECDSA and SM2 keys on
P-224, P-256, P-384, secp256k1 and the SM2 curve. All other keys on supported curves (P-521), Ed25519 and
Ethereum keys are refused by `Vrf` and by `Verify` with an error, whatever the other arguments. -/
theorem C73_supported_keys (E : VRF.Ext) (hE : E.Lawful) :
    (∀ t sk, sk.pub.curve ∈ Curves.all E.k1name →
      (validatePrivateKey E (.ec t sk) = true ↔ sk.pub.curve ≠ Curves.p521)) ∧
    (∀ t pk, pk.curve ∈ Curves.all E.k1name →
      (validatePublicKey E (.ec t pk) = true ↔ pk.curve ≠ Curves.p521)) ∧
    (∀ b sk, validatePrivateKey E (.ed b) = false ∧ validatePrivateKey E (.eth sk) = false) ∧
    (∀ b pk, validatePublicKey E (.ed b) = false ∧ validatePublicKey E (.eth pk) = false) ∧
    (∀ k, validatePrivateKey E k = false → ∀ h msg nonce draws fuel spare,
      vrf E h k msg nonce draws fuel spare = some (.err "only support ECC key")) ∧
    (∀ k, validatePublicKey E k = false → ∀ h msg v p draws fuel,
      verify E h k msg v p draws fuel = some (.err "only support ECC key")) := by
  have key : ∀ c ∈ Curves.all E.k1name, ((getHash E c).isSome = true ↔ c ≠ Curves.p521) := by
    intro c hc
    rw [Option.isSome_iff_exists]
    constructor
    · rintro ⟨a, ha⟩ rfl
      simp [getHash, Curves.p521] at ha
    · intro hne
      have : ∃ a, VrfHash E.k1name c a := by
        simp only [Curves.all, List.mem_cons, List.not_mem_nil, or_false] at hc
        rcases hc with rfl | rfl | rfl | h | rfl | rfl
        · exact ⟨_, .p224⟩
        · exact ⟨_, .p256⟩
        · exact ⟨_, .p384⟩
        · exact absurd h hne
        · exact ⟨_, .k1⟩
        · exact ⟨_, .sm2⟩
      obtain ⟨a, ha⟩ := this
      exact ⟨a, (getHash_iff hE c ha.mem a).2 ha⟩
  refine ⟨fun t sk hc => key _ hc, fun t pk hc => key _ hc, fun b sk => ⟨rfl, rfl⟩, fun b pk => ⟨rfl, rfl⟩, ?_, ?_⟩
  · intro k hk h msg nonce draws fuel spare
    cases k with
    | ec t sk =>
      have : getHash E sk.pub.curve = none := by
        simpa [validatePrivateKey] using hk
      unfold vrf; simp only [this]
    | ed b => rfl
    | eth sk => rfl
    | unknown => rfl
  · intro k hk h msg v p draws fuel
    cases k with
    | ec t pk =>
      have : getHash E pk.curve = none := by
        simpa [validatePublicKey] using hk
      unfold verify; simp only [this]
    | ed b => rfl
    | eth sk => rfl
    | unknown => rfl

/-! ## C74 -/

/-- **C74** `Vrf` with a proper key and a nonce never returns an error; it panics exactly if none of the 100
candidates for the hash point of public key and message is on the curve. -/
theorem C74_vrf_panics_iff (E : VRF.Ext) (hE : E.Lawful) (t : Alg) (sk : ECPriv) (hk : ECPair E.k1name sk)
    (a : HashAlg) (hv : VrfHash E.k1name sk.pub.curve a)
    (msg : Bytes) (hm : msg.length < 2 ^ 59) (h : Heap) (rb : Bytes) (draws : Nat → List Nat)
    (fuel : Nat) (spare : Bytes) (r : Res (Heap × Slice × Slice))
    (hr : vrf E h (.ec t sk) msg (.ok rb) draws fuel spare = some r) :
    (∀ m, r ≠ .err m) ∧
    ((∃ m, r = .panic m) ↔ ¬ ∃ hx hy, IsHashPoint (E.hash a) sk.pub.curve (curveA E.k1name sk.pub.curve)
        (enc sk.pub.curve (sk.pub.x, sk.pub.y) ++ msg) hx hy) := by
  have hg := good_of_mem E.k1name hE.k1name _ hk.1
  haveI := hg.fact
  obtain ⟨G, hG, hD, hsk⟩ := pair_cases hE hk
  have hQ := hk.2.2.2 G hG
  have ha := (getHash_iff hE _ hk.1 a).2 hv
  unfold vrf at hr
  simp only [ha] at hr
  obtain ⟨r', he, hr⟩ := Option.map_eq_some_iff.1 hr
  rw [hQ]
  generalize hc : sk.pub.curve = c at *
  generalize hd : sk.D = D at *
  subst hsk
  obtain ⟨s1, s2, s3, s4⟩ := evaluate_spec hE hv.fit hG D hD msg hm rb draws
  cases r' with
  | ok proof =>
    obtain ⟨H, Hp, s, q0, q1, -⟩ := s1 fuel proof he
    rw [← hr]
    exact ⟨fun m => by simp [Res.map], ⟨fun ⟨m, e⟩ => (by simp [Res.map] at e), fun h => absurd ⟨_, _, q1⟩ h⟩⟩
  | err m => exact absurd he (s2 fuel m)
  | panic m =>
    rw [← hr]
    exact ⟨fun m => by simp [Res.map], ⟨fun _ => s3 fuel m he, fun _ => ⟨m, rfl⟩⟩⟩

/-- **C74** `Verify` with a public key `Q` on a supported curve never returns an error; it panics exactly if
the value and the proof have the right lengths, the value encodes a point of the curve, and none of the 100
candidates for the hash point of public key and message is on the curve. -/
theorem C74_verify_panics_iff (E : VRF.Ext) (hE : E.Lawful) (t : Alg) (c : Curve) (a : HashAlg)
    (hv : VrfHash E.k1name c a) [Fact c.P.Prime] (G Q : Pt c (curveA E.k1name c)) (hG : xy G = (c.Gx, c.Gy))
    (hQ : Q ≠ 0) (h : Heap) (msg : Bytes) (hm : msg.length < 2 ^ 59) (v p : Slice) (hv' : v.Valid h)
    (hp : p.Valid h) (draws : Nat → List Nat) (fuel : Nat) (r : Res (Heap × Bool))
    (hr : verify E h (.ec t ⟨c, (xy Q).1, (xy Q).2⟩) msg v p draws fuel = some r) :
    (∀ m, r ≠ .err m) ∧
    ((∃ m, r = .panic m) ↔ (p.read h).length = 2 * c.byteSize ∧
      (∃ V : Pt c (curveA E.k1name c), V ≠ 0 ∧ v.read h = enc c (xy V)) ∧
      ¬ ∃ hx hy, IsHashPoint (E.hash a) c (curveA E.k1name c) (enc c (xy Q) ++ msg) hx hy) := by
  have ha := (getHash_iff hE c hv.mem a).2 hv
  have hlv := read_length h v hv'
  have hlp := read_length h p hp
  rw [verify_bytes (pk := ⟨c, (xy Q).1, (xy Q).2⟩) ha hp] at hr
  by_cases hl : v.len ≠ c.byteSize * 2 + 1 ∨ p.len ≠ c.byteSize * 2
  · rw [if_pos hl] at hr
    rw [← Option.some.inj hr]
    refine ⟨fun m => by simp, ⟨fun ⟨m, e⟩ => (by simp at e), ?_⟩⟩
    rintro ⟨h1, ⟨V, -, h2⟩, -⟩
    have := enc_length c (xy V)
    rw [← h2, hlv] at this
    omega
  · rw [if_neg hl] at hr
    obtain ⟨s1, s2, s3, s4, -⟩ := proofToHash_spec hE hv.fit hG hQ msg (v.read h) (p.read h) hm (by omega) (by omega) draws
    obtain ⟨r', hr', hr⟩ := Option.map_eq_some_iff.1 hr
    cases r' with
    | ok i =>
      rw [← hr]
      refine ⟨fun m => by simp, ⟨fun ⟨m, e⟩ => (by simp at e), ?_⟩⟩
      rintro ⟨-, h2, h3⟩
      obtain ⟨m, e⟩ := s4 h2 h3 fuel _ hr'
      cases e
    | err m =>
      rw [← hr]
      refine ⟨fun m => by simp, ⟨fun ⟨m, e⟩ => (by simp at e), ?_⟩⟩
      rintro ⟨-, h2, h3⟩
      obtain ⟨m, e⟩ := s4 h2 h3 fuel _ hr'
      cases e
    | panic m =>
      rw [← hr]
      obtain ⟨h2, h3⟩ := s3 fuel m hr'
      exact ⟨fun m => by simp, ⟨fun _ => ⟨by omega, h2, h3⟩, fun _ => ⟨m, rfl⟩⟩⟩

/-! ## Concrete cases -/

/-- `Vrf` returned a proof. -/
def made : Option (Res (Heap × Slice × Slice)) → Bool
  | some (.ok _) => true
  | _ => false

theorem made_iff {o : Option (Res (Heap × Slice × Slice))} (h : made o = true) :
    ∃ h1 v p, o = some (.ok (h1, v, p)) := by
  unfold made at h
  split at h
  next r => exact ⟨r.1, r.2.1, r.2.2, rfl⟩
  next => cases h

/-- Key pairs for which the reference instance makes a proof (hypotheses of C45, C46, C48, C49, and through
C45 of C47): P-256 with nonce 3, secp256k1 with nonce 0 and spare capacity, P-384. -/
example : ∀ x ∈ [(keyOn Curves.p256 2, [(3 : Byte)], ([] : Bytes)), (keyOn (Curves.secp256k1 "") 5, [], zeros 7),
      (keyOn Curves.p384 3, [9], [])],
    ECPair refVrf.k1name x.1 ∧ ∃ h1 v p,
      vrf refVrf ⟨fun _ => [], 0⟩ (.ec .ecdsa x.1) [0x61] (.ok x.2.1) (fun _ => []) 2 x.2.2 = some (.ok (h1, v, p)) := by
  intro x hx
  refine ⟨?_, made_iff ?_⟩
  · simp only [List.mem_cons, List.not_mem_nil, or_false] at hx
    rcases hx with rfl | rfl | rfl
    · exact keyOn_pair _ (by decide) 2 (by decide +kernel)
    · exact keyOn_pair _ (by decide) 5 (by decide +kernel)
    · exact keyOn_pair _ (by decide) 3 (by decide +kernel)
  · revert x
    decide +kernel

/-- **C48** (negation, concretely) There are a key, a message and a heap such that `Vrf` returns `v` and `p`
and a subsequent `Verify` of `p` with another value changes the bytes of `v`. -/
theorem C48_overwritten_witness :
    ∃ sk, ECPair refVrf.k1name sk ∧ ∃ h h1 h2 : Heap, ∃ v p v' : Slice, v'.Valid h ∧
      vrf refVrf h (.ec .ecdsa sk) [0x61] (.ok [3]) (fun _ => []) 2 [] = some (.ok (h1, v, p)) ∧
      verify refVrf h1 (.ec .ecdsa sk.pub) [0x61] v' p (fun _ => []) 2 = some (.ok (h2, false)) ∧
      v.read h2 ≠ v.read h1 := by
  refine ⟨keyOn Curves.p256 2, keyOn_pair _ (by decide) 2 (by decide +kernel),
    ⟨fun _ => List.replicate 65 7, 1⟩, ?_⟩
  have hc : (match vrf refVrf ⟨fun _ => List.replicate 65 7, 1⟩ (.ec .ecdsa (keyOn Curves.p256 2)) [0x61] (.ok [3])
        (fun _ => []) 2 [] with
      | some (.ok (h1, v, p)) =>
        match verify refVrf h1 (.ec .ecdsa (keyOn Curves.p256 2).pub) [0x61] ⟨0, 0, 65, 65⟩ p (fun _ => []) 2 with
        | some (.ok (h2, false)) => v.read h2 != v.read h1
        | _ => false
      | _ => false) = true := by decide +kernel
  split at hc
  next h1 v p hv =>
    split at hc
    next h2 hw =>
      exact ⟨h1, h2, v, p, ⟨0, 0, 65, 65⟩, ⟨by decide, by decide, by decide⟩, hv, hw, by simpa using hc⟩
    next => cases hc
  next => cases hc

/-- `Verify` does return for the supported curves (hypothesis of C74). -/
example : VrfHash refVrf.k1name Curves.p256 .sha256 ∧
    verify refVrf ⟨fun _ => [], 1⟩ (.ec .ecdsa (keyOn Curves.p256 2).pub) [] ⟨0, 0, 0, 0⟩ ⟨0, 0, 0, 0⟩
      (fun _ => []) 0 = some (.ok (⟨fun _ => [], 1⟩, false)) := ⟨.p256, rfl⟩

/-- The reference instance with another hash for long inputs. -/
def refVrf' : VRF.Ext :=
  { refVrf with extHash := fun a m => if m.length < 150 then refHash a m else List.replicate (size a) 1 }

theorem refVrf'_lawful : refVrf'.Lawful :=
  { refVrf_lawful with
    size := by
      intro a m
      show (if m.length < 150 then refHash a m else List.replicate (size a) 1).length = size a
      split_ifs
      · exact refVrf_lawful.size a m
      · simp }

/-- The hypotheses of `C47_special_soundness`, for a key pair. -/
def TwoChallenges (sk : ECPriv) : Prop :=
  ∃ (_ : Fact sk.pub.curve.P.Prime) (G : Pt sk.pub.curve (curveA "" sk.pub.curve))
    (Hs Hs' : Bytes → Bytes) (msg vrf nizk nizk' : Bytes) (hx hy : Nat),
    xy G = (sk.pub.curve.Gx, sk.pub.curve.Gy) ∧
    IsHashPoint Hs sk.pub.curve (curveA "" sk.pub.curve) (enc sk.pub.curve (xy (sk.D • G)) ++ msg) hx hy ∧
    IsHashPoint Hs' sk.pub.curve (curveA "" sk.pub.curve) (enc sk.pub.curve (xy (sk.D • G)) ++ msg) hx hy ∧
    VRF.Accepts Hs G (sk.D • G) msg vrf nizk ∧ VRF.Accepts Hs' G (sk.D • G) msg vrf nizk' ∧
    (∀ V Hp : Pt sk.pub.curve (curveA "" sk.pub.curve), vrf = enc sk.pub.curve (xy V) →
      xy Hp = (hx % sk.pub.curve.P, hy) →
      transcript sk.pub.curve (hx, hy) (xy (sk.D • G)) (xy V)
        (xy (natOfBytes (nizk.drop sk.pub.curve.byteSize) • G +
          natOfBytes (nizk.take sk.pub.curve.byteSize) • (sk.D • G)))
        (xy (natOfBytes (nizk.drop sk.pub.curve.byteSize) • Hp +
          natOfBytes (nizk.take sk.pub.curve.byteSize) • V)) =
      transcript sk.pub.curve (hx, hy) (xy (sk.D • G)) (xy V)
        (xy (natOfBytes (nizk'.drop sk.pub.curve.byteSize) • G +
          natOfBytes (nizk'.take sk.pub.curve.byteSize) • (sk.D • G)))
        (xy (natOfBytes (nizk'.drop sk.pub.curve.byteSize) • Hp +
          natOfBytes (nizk'.take sk.pub.curve.byteSize) • V))) ∧
    nizk.take sk.pub.curve.byteSize ≠ nizk'.take sk.pub.curve.byteSize

/-- Two honest proofs with the same nonce under hash functions that agree on short inputs. -/
theorem twoChallenges_of {E E' : VRF.Ext} (hE : E.Lawful) (hE' : E'.Lawful) (hn : E.k1name = "")
    (hn' : E'.k1name = "") (hsame : ∀ a m, m.length < 150 → E'.hash a m = E.hash a m) {sk : ECPriv}
    (hk : ECPair "" sk) {msg rb : Bytes} (hm : msg.length < 10)
    (hb : sk.pub.curve.byteSize ≤ 48) {h h' : Heap} {t t' : Alg} {draws draws' : Nat → List Nat} {fuel fuel' : Nat}
    {spare spare' : Bytes} {h1 h1' : Heap} {v p v' p' : Slice}
    (e1 : vrf E h (.ec t sk) msg (.ok rb) draws fuel spare = some (.ok (h1, v, p)))
    (e2 : vrf E' h' (.ec t' sk) msg (.ok rb) draws' fuel' spare' = some (.ok (h1', v', p')))
    (hd : (p.read h1).take sk.pub.curve.byteSize ≠ (p'.read h1').take sk.pub.curve.byteSize) :
    TwoChallenges sk := by
  have hg := good_of_mem "" (Or.inl rfl) _ hk.1
  haveI := hg.fact
  have hF := supported_goodField "" _ hk.1
  have hN := (Signature.byteSize_bound hk.1).1
  have hN0 : (0 : Int) < sk.pub.curve.N := by exact_mod_cast hg.order_prime.pos
  rw [← hn] at hg hk
  obtain ⟨G, hG⟩ := hg.exists_G
  obtain ⟨a, rb1, H, s, Hp, hv, b1, -, -, hsk, hD, q0, q1, q2, q3, q4, q5, q6⟩ :=
    vrf_made hE hk (by omega) e1 G hG
  have hE'k : E'.k1name = E.k1name := hn'.trans hn.symm
  have made' := vrf_made hE' (by rw [hE'k]; exact hk) (by omega) e2
  rw [hE'k] at made'
  obtain ⟨a', rb1', H', s', Hp', hv', b1', -, -, hsk', hD', q0', q1', q2', q3', q4', q5', q6'⟩ := made' G hG
  have ea : a' = a := by
    have f1 := (getHash_iff hE _ hk.1 a).2 hv
    have f2 := (getHash_iff hE _ hk.1 a').2 hv'
    exact Option.some.inj (f2.symm.trans f1)
  subst ea
  cases b1
  cases b1'
  generalize hc : sk.pub.curve = c at *
  generalize hdd : sk.D = D at *
  have hcand : ∀ i, cand (E'.hash a') c (enc c (xy (D • G)) ++ msg) i =
      cand (E.hash a') c (enc c (xy (D • G)) ++ msg) i := by
    intro i
    unfold cand
    rw [hsame]
    rw [List.length_append, List.length_append, enc_length, beFix_length]
    omega
  have q1'' : IsHashPoint (E.hash a') c (curveA E.k1name c) (enc c (xy (D • G)) ++ msg) H'.1 H'.2 := by
    obtain ⟨i, hi, r1, r2, r3, r4, r5⟩ := q1'
    exact ⟨i, hi, r1.trans (hcand i), r2, r3, r4, fun j hj => by rw [← hcand]; exact r5 j hj⟩
  obtain ⟨f1, f2⟩ := hashPoint_unique hg hF.odd q1 q1''
  have fH : H = H' := Prod.ext f1 f2
  subst fH
  have fP : Hp = Hp' := Affine.xy_inj hg.ok (q3.trans q3'.symm)
  subst fP
  have key : ∀ (s : Nat) (pr : Bytes), s < 256 ^ c.byteSize → pr = beFix c.byteSize s ++
      beFix c.byteSize ((((natOfBytes rb : Nat) : Int) - (s : Int) * D) % c.N).toNat →
      ∀ P : Pt c (curveA E.k1name c), natOfBytes (pr.drop c.byteSize) • P +
        natOfBytes (pr.take c.byteSize) • (D • P) = natOfBytes rb • P := by
    intro s pr hs e P
    have ht := Int.emod_lt_of_pos (((natOfBytes rb : Nat) : Int) - (s : Int) * D) hN0
    rw [e, List.take_left' (beFix_length _ _), List.drop_left' (beFix_length _ _), natOfBytes_beFix_of_lt hs,
      natOfBytes_beFix_of_lt (by omega), commit_eq hg]
  have hs : s < 256 ^ c.byteSize := by
    have := ((C49_challenge_range _ _ _ _).1 _ _ q4).2.1
    omega
  have hs' : s' < 256 ^ c.byteSize := by
    have := ((C49_challenge_range _ _ _ _).1 _ _ q4').2.1
    omega
  unfold TwoChallenges
  rw [← hn]
  subst hc
  subst hdd
  refine ⟨hg.fact, G, E.hash a', E'.hash a', msg, v.read h1, p.read h1, p'.read h1', H.1,
    H.2, hG, q1, q1', ?_, ?_, ?_, hd⟩
  · rw [q5, q6]
    exact accepts_made hg hN hD q1 q2 q3 (hashToInt_spec q4)
  · rw [q6, q5']
    exact accepts_made hg hN hD q1' q2 q3 (hashToInt_spec q4')
  · intro V Hq hV hHq
    have fq : Hq = Hp := Affine.xy_inj hg.ok (hHq.trans q3.symm)
    have fV : V = sk.D • Hp := enc_inj hg hF.fits (hV.symm.trans q6)
    subst fq
    subst fV
    rw [key s _ hs q5, key s _ hs q5, key s' _ hs' q5', key s' _ hs' q5']

example : TwoChallenges (keyOn Curves.p256 2) := by
  have hc : (match vrf refVrf ⟨fun _ => [], 0⟩ (.ec .ecdsa (keyOn Curves.p256 2)) [0x61] (.ok [3]) (fun _ => []) 2 [],
      vrf refVrf' ⟨fun _ => [], 0⟩ (.ec .ecdsa (keyOn Curves.p256 2)) [0x61] (.ok [3]) (fun _ => []) 2 [] with
    | some (.ok (h1, _, p)), some (.ok (h1', _, p')) =>
      (p.read h1).take (keyOn Curves.p256 2).pub.curve.byteSize !=
        (p'.read h1').take (keyOn Curves.p256 2).pub.curve.byteSize
    | _, _ => false) = true := by decide +kernel
  have hsame : ∀ a m, m.length < 150 → refVrf'.hash a m = refVrf.hash a m := by
    intro a m hm
    cases a
    all_goals first | rfl | exact if_pos hm
  split at hc
  next h1 v p h1' v' p' e1 e2 =>
    exact twoChallenges_of refVrf_lawful refVrf'_lawful rfl rfl hsame
      (keyOn_pair _ (by decide) 2 (by decide +kernel)) (by decide) (by decide) e1 e2 (by simpa using hc)
  next => cases hc

end Verif.Props
