import Verif.Props.Malleable
import Verif.Props.SM2Nonce
/-!
# C135, C136: does a signature tell who signed it, and with which hash function?

C135: is a signature accepted under one key only? C136: is it accepted under one scheme only?

Specification: `Accepts` of Spec/ECDSA.lean and Spec/SM2.lean, `bits2int` of Spec/ECDSA.lean, and the points
`Pt` of the curve with their group law.
-/
namespace Verif.Props
open Verif.Keypair Verif.Signature Verif.Spec

/-! ## The condition on two checks of one pair of numbers -/

/-- One pair `(r, s)` is checked twice, with the points `d G` and `d' G` and the integers `e` and `e'`. -/
theorem accepts_of_key {c : Curve} {a : Int} (h : GoodCurve c a) [Fact c.P.Prime] {G : Pt c a} (hG : G ≠ 0)
    {d d' e e' : ℕ} {r s : ℤ} (ha : ECDSA.Accepts G (d • G) e r s)
    (hk : r.toNat * d' + e' ≡ r.toNat * d + e [MOD c.N] ∨
      r.toNat * d' + e' + (r.toNat * d + e) ≡ 0 [MOD c.N]) : ECDSA.Accepts G (d' • G) e' r s := by
  obtain ⟨h1, h2, h3, h4, w, a5, a6, a7⟩ := ha
  refine ⟨h1, h2, h3, h4, w, a5, ?_⟩
  have f : ∀ d e : ℕ, (e * w) • G + (r.toNat * w) • d • G = ((r.toNat * d + e) * w) • G := by
    intro d e
    rw [smul_smul, ← add_smul]
    congr 1
    ring
  rw [f] at a6 a7 ⊢
  rcases hk with hk | hk
  · have : ((r.toNat * d' + e') * w) • G = ((r.toNat * d + e) * w) • G :=
      (h.smul_eq_iff hG _ _).2 (hk.mul_right w)
    rw [this]
    exact ⟨a6, a7⟩
  · have : ((r.toNat * d' + e') * w) • G = -(((r.toNat * d + e) * w) • G) := by
      rw [eq_neg_iff_add_eq_zero, ← add_smul, ← zero_smul ℕ G, h.smul_eq_iff hG, ← add_mul]
      have := hk.mul_right w
      rwa [zero_mul] at this
    rw [this, xy_neg_fst]
    exact ⟨neg_ne_zero.2 a6, a7⟩

theorem key_of_accepts {c : Curve} {a : Int} (h : GoodCurve c a) [Fact c.P.Prime] {G : Pt c a} (hG : G ≠ 0)
    {d d' e e' : ℕ} {r s : ℤ} (ha : ECDSA.Accepts G (d • G) e r s) (hb : ECDSA.Accepts G (d' • G) e' r s) :
    (r.toNat * d' + e' ≡ r.toNat * d + e [MOD c.N] ∨
      r.toNat * d' + e' + (r.toNat * d + e) ≡ 0 [MOD c.N]) ∨
      ∃ w w' : ℕ, s.toNat * w % c.N = 1 ∧ s.toNat * w' % c.N = 1 ∧
        let R := (e * w) • G + (r.toNat * w) • d • G
        let R' := (e' * w') • G + (r.toNat * w') • d' • G
        (xy R).1 ≠ (xy R').1 ∧ (xy R).1 ≡ (xy R').1 [MOD c.N] := by
  obtain ⟨h1, h2, -, -, w, a5, a6, a7⟩ := ha
  obtain ⟨-, -, -, -, w', b5, b6, b7⟩ := hb
  have hN : 1 < c.N := h.order_prime.one_lt
  have f : ∀ d e w : ℕ, (e * w) • G + (r.toNat * w) • d • G = ((r.toNat * d + e) * w) • G := by
    intro d e w
    rw [smul_smul, ← add_smul]
    congr 1
    ring
  have k : ∀ {w : ℕ}, s.toNat * w % c.N = 1 → ∀ d e : ℕ,
      s.toNat * ((r.toNat * d + e) * w) ≡ r.toNat * d + e [MOD c.N] := by
    intro w hw d e
    have : s.toNat * w ≡ 1 [MOD c.N] := by unfold Nat.ModEq; rw [hw, Nat.mod_eq_of_lt hN]
    have := this.mul_right (r.toNat * d + e)
    rw [one_mul] at this
    convert this using 1
    ring
  by_cases hx : (xy ((e * w) • G + (r.toNat * w) • d • G)).1 = (xy ((e' * w') • G + (r.toNat * w') • d' • G)).1
  · left
    rcases eq_or_neg a6 b6 hx with he | he
    · left
      rw [f, f] at he
      have : _ ≡ _ [MOD c.N] := (h.smul_eq_iff hG _ _).1 he
      exact (((k a5 d e).symm.trans (Nat.ModEq.mul_left s.toNat this)).trans (k b5 d' e')).symm
    · right
      rw [f, f, eq_neg_iff_add_eq_zero, ← add_smul, ← zero_smul ℕ G] at he
      have : _ ≡ _ [MOD c.N] := (h.smul_eq_iff hG _ _).1 he
      have t := Nat.ModEq.mul_left s.toNat this
      rw [mul_add, mul_zero] at t
      have := ((k a5 d e).add (k b5 d' e')).symm.trans t
      rwa [add_comm] at this
  · right
    exact ⟨w, w', a5, b5, hx, by unfold Nat.ModEq; omega⟩

theorem order_odd (E : Signature.Ext) (hE : E.Lawful) {cv : Curve} (hc : cv ∈ Curves.all E.k1name) : cv.N % 2 = 1 := by
  have key : ∀ nm, nm = "" ∨ nm = "secp256k1" → ∀ c ∈ Curves.all nm, c.N % 2 = 1 := by
    rintro nm (rfl | rfl) <;> decide +kernel
  exact key _ hE.k1name _ hc

theorem verify_message {E : Signature.Ext} {k : PublicKey} {m : Bytes} {sig : Option (Sig Buf)}
    (h : verify E k m sig = .ok true) : m ≠ [] := by
  rintro rfl
  unfold verify at h
  cases sig <;> simp at h

/-- The key with the coordinates of `d G`. -/
abbrev keyAt {cv : Curve} {a : Int} [Fact cv.P.Prime] (G : Pt cv a) (d : ℕ) : ECPub :=
  ⟨cv, (xy (d • G)).1, (xy (d • G)).2⟩

/-- **C135, C136**, when a second check succeeds: let `(r, s)` be accepted for `msg` under the key `d G`. Then it
is also accepted for `msg'` under the key `d' G` if the sum or the difference of `r d + e` and `r d' + e'` is
divisible by the order of the curve. The two schemes may be different. -/
theorem C135_transfer (E : Signature.Ext) (hE : E.Lawful) (scheme scheme' : Scheme) (a a' : HashAlg)
    (hname : name scheme = .ok (a.published ++ "withECDSA")) (hname' : name scheme' = .ok (a'.published ++ "withECDSA"))
    (alg alg' : Alg) (cv : Curve) (hc : cv ∈ Curves.all E.k1name) [Fact cv.P.Prime]
    (G : Pt cv (curveA E.k1name cv)) (hG : xy G = (cv.Gx, cv.Gy)) (d d' : ℕ) (hd : ¬ d ≡ 0 [MOD cv.N])
    (hd' : ¬ d' ≡ 0 [MOD cv.N]) (msg msg' : Bytes) (hm : msg' ≠ []) (r s : Int) (c c' : Option Curve)
    (h : verify E (.ec alg (keyAt G d)) msg (some ⟨scheme, .dsa r s c⟩) = .ok true)
    (hk : let e := ECDSA.bits2int cv.N (E.hash a msg)
      let e' := ECDSA.bits2int cv.N (E.hash a' msg')
      r.toNat * d' + e' ≡ r.toNat * d + e [MOD cv.N] ∨ r.toNat * d' + e' + (r.toNat * d + e) ≡ 0 [MOD cv.N]) :
    verify E (.ec alg' (keyAt G d')) msg' (some ⟨scheme', .dsa r s c'⟩) = .ok true := by
  have hg := good_of_mem E.k1name hE.k1name _ hc
  have hG0 : G ≠ 0 := hg.G_ne_zero hG
  have nz : ∀ {d : ℕ}, ¬ d ≡ 0 [MOD cv.N] → d • G ≠ 0 := fun hd h0 => hd (by
    rw [← zero_smul ℕ G, hg.smul_eq_iff hG0] at h0; exact h0)
  obtain ⟨b, e1, e2⟩ := C72_ecdsa_standard E hE scheme a hname alg (keyAt G d) hc G (d • G) hG (nz hd) rfl msg
    (verify_message h) r s c
  obtain ⟨b', e1', e2'⟩ := C72_ecdsa_standard E hE scheme' a' hname' alg' (keyAt G d') hc G (d' • G) hG (nz hd') rfl
    msg' hm r s c'
  rw [h] at e1
  cases e1
  rw [e1', e2'.2 (accepts_of_key hg hG0 (e2.1 rfl) hk)]

/-- **C135, C136** (partial), when a second check succeeds: if `(r, s)` is accepted for `msg` under the key `d G`
and for `msg'` under the key `d' G`, then the sum or the difference of `r d + e` and `r d' + e'` is divisible by
the order of the curve, or the points computed in the two checks have different x-coordinates that are equal
modulo the order. -/
theorem C135_keys_partial (E : Signature.Ext) (hE : E.Lawful) (scheme scheme' : Scheme) (a a' : HashAlg)
    (hname : name scheme = .ok (a.published ++ "withECDSA")) (hname' : name scheme' = .ok (a'.published ++ "withECDSA"))
    (alg alg' : Alg) (cv : Curve) (hc : cv ∈ Curves.all E.k1name) [Fact cv.P.Prime]
    (G : Pt cv (curveA E.k1name cv)) (hG : xy G = (cv.Gx, cv.Gy)) (d d' : ℕ) (hd : ¬ d ≡ 0 [MOD cv.N])
    (hd' : ¬ d' ≡ 0 [MOD cv.N]) (msg msg' : Bytes) (r s : Int) (c c' : Option Curve)
    (h : verify E (.ec alg (keyAt G d)) msg (some ⟨scheme, .dsa r s c⟩) = .ok true)
    (h' : verify E (.ec alg' (keyAt G d')) msg' (some ⟨scheme', .dsa r s c'⟩) = .ok true) :
    let e := ECDSA.bits2int cv.N (E.hash a msg)
    let e' := ECDSA.bits2int cv.N (E.hash a' msg')
    (r.toNat * d' + e' ≡ r.toNat * d + e [MOD cv.N] ∨ r.toNat * d' + e' + (r.toNat * d + e) ≡ 0 [MOD cv.N]) ∨
      ∃ w w' : ℕ, s.toNat * w % cv.N = 1 ∧ s.toNat * w' % cv.N = 1 ∧
        let R := (e * w) • G + (r.toNat * w) • d • G
        let R' := (e' * w') • G + (r.toNat * w') • d' • G
        (xy R).1 ≠ (xy R').1 ∧ (xy R).1 ≡ (xy R').1 [MOD cv.N] := by
  have hg := good_of_mem E.k1name hE.k1name _ hc
  have hG0 : G ≠ 0 := hg.G_ne_zero hG
  have nz : ∀ {d : ℕ}, ¬ d ≡ 0 [MOD cv.N] → d • G ≠ 0 := fun hd h0 => hd (by
    rw [← zero_smul ℕ G, hg.smul_eq_iff hG0] at h0; exact h0)
  obtain ⟨b, e1, e2⟩ := C72_ecdsa_standard E hE scheme a hname alg (keyAt G d) hc G (d • G) hG (nz hd) rfl msg
    (verify_message h) r s c
  obtain ⟨b', e1', e2'⟩ := C72_ecdsa_standard E hE scheme' a' hname' alg' (keyAt G d') hc G (d' • G) hG (nz hd') rfl
    msg' (verify_message h') r s c'
  rw [h] at e1
  rw [h'] at e1'
  cases e1
  cases e1'
  exact key_of_accepts hg hG0 (e2.1 rfl) (e2'.1 rfl)

/-- The two multiples of `G` under which `(r, s)` is accepted. -/
theorem second_key {N : ℕ} (hN : N.Prime) (hodd : N % 2 = 1) {r d e : ℕ} (hr : 1 ≤ r) (hr' : r < N)
    (hR : ¬ r * d + e ≡ 0 [MOD N]) (h0 : ¬ r * d + 2 * e ≡ 0 [MOD N]) :
    ∃ d' < N, ¬ d' ≡ 0 [MOD N] ∧ ¬ d' ≡ d [MOD N] ∧ r * d' + e + (r * d + e) ≡ 0 [MOD N] := by
  have : Fact N.Prime := ⟨hN⟩
  have two : (2 : ZMod N) ≠ 0 := by
    intro h0
    have : ((2 : ℕ) : ZMod N) = 0 := by exact_mod_cast h0
    rw [ZMod.natCast_eq_zero_iff] at this
    have := Nat.le_of_dvd (by norm_num) this
    have := hN.two_le
    have : N = 2 := by omega
    omega
  have rz : (r : ZMod N) ≠ 0 := by
    rw [Ne, ZMod.natCast_eq_zero_iff]
    intro h
    have := Nat.le_of_dvd (by omega) h
    omega
  set D : ZMod N := -(r * d + 2 * e) / r with hD
  have hrD : (r : ZMod N) * D = -(r * d + 2 * e) := by rw [hD]; field_simp
  have cw : ((D.val : ℕ) : ZMod N) = D := ZMod.natCast_zmod_val D
  have cast : ∀ {k l : ℕ}, k ≡ l [MOD N] → (k : ZMod N) = l := fun h => (ZMod.natCast_eq_natCast_iff _ _ _).2 h
  refine ⟨D.val, ZMod.val_lt D, fun h => h0 ?_, fun h => hR ?_, ?_⟩
  · have := cast h
    rw [cw, Nat.cast_zero] at this
    rw [this, mul_zero] at hrD
    apply (ZMod.natCast_eq_natCast_iff _ _ _).1
    push_cast
    linear_combination hrD
  · have := cast h
    rw [cw] at this
    rw [this] at hrD
    apply (ZMod.natCast_eq_natCast_iff _ _ _).1
    push_cast
    have : (2 : ZMod N) * (r * d + e) = 0 := by linear_combination hrD
    exact (mul_eq_zero.1 this).resolve_left two
  · apply (ZMod.natCast_eq_natCast_iff _ _ _).1
    push_cast
    rw [cw]
    linear_combination hrD

/-- An accepted pair `(r, s)` is accepted with a second point. -/
theorem accepts_second {cv : Curve} {a : Int} (hg : GoodCurve cv a) [Fact cv.P.Prime] {G : Pt cv a} (hG0 : G ≠ 0)
    (hodd : cv.N % 2 = 1) {d e : ℕ} {r s : ℤ} (acc : ECDSA.Accepts G (d • G) e r s)
    (h0 : ¬ r.toNat * d + 2 * e ≡ 0 [MOD cv.N]) :
    ∃ d', ¬ d' ≡ 0 [MOD cv.N] ∧ d' • G ≠ 0 ∧ d' • G ≠ d • G ∧
      (∀ v : ℕ, r.toNat * v ≡ 1 [MOD cv.N] → d' • G = -(d • G + (2 * (e * v)) • G)) ∧
      r.toNat * d' + e + (r.toNat * d + e) ≡ 0 [MOD cv.N] ∧ ECDSA.Accepts G (d' • G) e r s := by
  have acc' := acc
  obtain ⟨h1, h2, -, -, w, -, a6, -⟩ := acc
  have hR : ¬ r.toNat * d + e ≡ 0 [MOD cv.N] := by
    intro hz
    apply a6
    rw [smul_smul, ← add_smul, ← zero_smul ℕ G, hg.smul_eq_iff hG0]
    have := hz.mul_right w
    rw [zero_mul] at this
    have e : e * w + r.toNat * w * d = (r.toNat * d + e) * w := by ring
    exact (congrArg (· % cv.N) e).trans this
  obtain ⟨d', -, p1, p2, p3⟩ := second_key hg.order_prime hodd (by omega) (by omega) hR h0
  refine ⟨d', p1, fun h0 => p1 ?_, fun he => p2 ((hg.smul_eq_iff hG0 _ _).1 he), fun v hv => ?_, p3,
    accepts_of_key hg hG0 acc' (.inr p3)⟩
  · rw [← zero_smul ℕ G, hg.smul_eq_iff hG0] at h0
    exact h0
  · rw [eq_neg_iff_add_eq_zero, ← add_smul, ← add_smul, ← zero_smul ℕ G, hg.smul_eq_iff hG0]
    have t : (r.toNat * v) * (d' + d + 2 * (e * v)) ≡ d' + d + 2 * (e * v) [MOD cv.N] := by
      have := hv.mul_right (d' + d + 2 * (e * v))
      rwa [one_mul] at this
    have u : (r.toNat * v) * (d' + d + 2 * (e * v)) ≡ v * (r.toNat * d' + e + (r.toNat * d + e)) [MOD cv.N] := by
      have q := hv.mul_right (2 * (e * v))
      rw [one_mul] at q
      have := Nat.ModEq.add_left (v * (r.toNat * d' + r.toNat * d)) q
      convert this using 1 <;> ring
    have z := p3.mul_left v
    rw [mul_zero] at z
    have := t.symm.trans (u.trans z)
    rw [← add_assoc]
    exact this

/-- **C135** is false for the schemes named XwithECDSA: a signature that is accepted under a key is accepted, for
the same message, under a second key, which has other coordinates. The second key can be computed from the
first, `Q`, the message and the signature: it is `-(Q + (2 e / r) G)`. The only exception is a key for which
this is the point at infinity. -/
theorem C135_second_key_fails (E : Signature.Ext) (hE : E.Lawful) (scheme : Scheme) (a : HashAlg)
    (hname : name scheme = .ok (a.published ++ "withECDSA")) (alg : Alg) (cv : Curve) (hc : cv ∈ Curves.all E.k1name)
    [Fact cv.P.Prime] (G : Pt cv (curveA E.k1name cv)) (hG : xy G = (cv.Gx, cv.Gy)) (d : ℕ)
    (hd : ¬ d ≡ 0 [MOD cv.N]) (msg : Bytes) (r s : Int) (c : Option Curve)
    (h : verify E (.ec alg (keyAt G d)) msg (some ⟨scheme, .dsa r s c⟩) = .ok true)
    (h0 : ¬ r.toNat * d + 2 * ECDSA.bits2int cv.N (E.hash a msg) ≡ 0 [MOD cv.N]) :
    ∃ Q' : Pt cv (curveA E.k1name cv), Q' ≠ 0 ∧ Q' ≠ d • G ∧
      (∀ v : ℕ, r.toNat * v ≡ 1 [MOD cv.N] →
        Q' = -(d • G + (2 * (ECDSA.bits2int cv.N (E.hash a msg) * v)) • G)) ∧
      ∃ pub' : ECPub, (pub'.x, pub'.y) = xy Q' ∧ (pub'.x, pub'.y) ≠ ((keyAt G d).x, (keyAt G d).y) ∧
        verify E (.ec alg pub') msg (some ⟨scheme, .dsa r s c⟩) = .ok true := by
  have hg := good_of_mem E.k1name hE.k1name _ hc
  have hG0 : G ≠ 0 := hg.G_ne_zero hG
  have nz : d • G ≠ 0 := fun h0 => hd (by rw [← zero_smul ℕ G, hg.smul_eq_iff hG0] at h0; exact h0)
  obtain ⟨b, e1, e2⟩ := C72_ecdsa_standard E hE scheme a hname alg (keyAt G d) hc G (d • G) hG nz rfl msg
    (verify_message h) r s c
  rw [h] at e1
  cases e1
  obtain ⟨d', p1, p2, p3, p4, p5, -⟩ := accepts_second hg hG0 (order_odd E hE hc) (e2.1 rfl) h0
  exact ⟨d' • G, p2, p3, p4, keyAt G d', rfl, fun he => p3 (Affine.xy_inj hg.ok he),
    C135_transfer E hE scheme scheme a a hname hname alg alg cv hc G hG d d' hd p1 msg msg (verify_message h) r s c c h
      (.inr p5)⟩

/-- **C135** is false for Ethereum keys too: the last byte of a signature, which would tell the two keys apart, is
not looked at. `e` is the number that is signed. -/
theorem C135_eth_second_key_fails (E : Signature.Ext) (hE : E.Lawful) [Fact (Curves.secp256k1 "").P.Prime]
    (G : Pt (Curves.secp256k1 "") 0) (hG : xy G = ((Curves.secp256k1 "").Gx, (Curves.secp256k1 "").Gy)) (d : ℕ)
    (hd : ¬ d ≡ 0 [MOD (Curves.secp256k1 "").N]) (msg : Bytes) (hl : (E.hash .keccak256 msg).length = 32) (b : Buf)
    (h : verify E (.eth (keyAt G d)) msg (some ⟨11, .bytes b⟩) = .ok true)
    (h0 : ¬ rOf (b.data ++ b.spare) * d + 2 * ECDSA.bits2int (Curves.secp256k1 "").N
      (if msg.length = 32 then msg else E.hash .keccak256 msg) ≡ 0 [MOD (Curves.secp256k1 "").N]) :
    ∃ pub' : ECPub, (∃ Q' : Pt (Curves.secp256k1 "") 0, Q' ≠ 0 ∧ (pub'.x, pub'.y) = xy Q') ∧
      (pub'.x, pub'.y) ≠ ((keyAt G d).x, (keyAt G d).y) ∧
      verify E (.eth pub') msg (some ⟨11, .bytes b⟩) = .ok true := by
  have hg : GoodCurve (Curves.secp256k1 "") 0 := good_k1 ""
  have hG0 : G ≠ 0 := hg.G_ne_zero hG
  have nz : d • G ≠ 0 := fun h0 => hd (by rw [← zero_smul ℕ G, hg.smul_eq_iff hG0] at h0; exact h0)
  have hm : ¬ msg.length = 0 := fun e => verify_message h (List.eq_nil_of_length_eq_zero e)
  have hb : ¬ (b.data ++ b.spare).length < 64 := by
    intro hb
    unfold verify verifyEth at h
    simp only [if_neg hm, if_pos hb] at h
    cases h
  set D := if msg.length = 32 then msg else E.hash .keccak256 msg with hD
  have hDl : D.length = 32 := by
    rw [hD]; split
    · assumption
    · exact hl
  have key : ∀ pub, verify E (.eth pub) msg (some ⟨11, .bytes b⟩) =
      .ok (E.ethVerify (fromECDSAPub pub) D ((b.data ++ b.spare).take 64)) := by
    intro pub
    have k3 : hashOf KECCAK256WithECDSA = some .keccak256 := rfl
    unfold verify verifyEth
    simp only [if_neg hm, if_neg hb, k3]
    rw [if_neg (show ¬ ((11 : Scheme) ≠ KECCAK256WithECDSA) by decide)]
    by_cases h32 : msg.length = 32
    · rw [if_neg (not_not.2 h32), hD, if_pos h32]
    · rw [if_pos h32, hD, if_neg h32]
  have hl64 : ((b.data ++ b.spare).take 64).length = 64 := by rw [List.length_take]; omega
  have rO : rOf ((b.data ++ b.spare).take 64) = rOf (b.data ++ b.spare) := by
    unfold rOf; rw [List.take_take]; rfl
  rw [key] at h
  obtain ⟨acc, low⟩ := (hE.eth_verify (keyAt G d) D _ hDl hl64 G (d • G) hG nz rfl).1 (Res.ok.inj h)
  obtain ⟨d', -, p2, p3, -, -, p6⟩ := accepts_second hg hG0 (by decide +kernel) acc (by
    rw [Int.toNat_natCast, rO]; exact h0)
  refine ⟨keyAt G d', ⟨_, p2, rfl⟩, fun he => p3 (Affine.xy_inj hg.ok he), ?_⟩
  rw [key, (hE.eth_verify (keyAt G d') D _ hDl hl64 G (d' • G) hG p2 rfl).2 ⟨p6, low⟩]

/-- **C135** is false across messages: a signature that is accepted under some key is accepted for every message,
under a key that can be computed from the first key, the two messages and the signature: it is
`Q + ((e - e') / r) G`. -/
theorem C135_any_message (E : Signature.Ext) (hE : E.Lawful) (scheme : Scheme) (a : HashAlg)
    (hname : name scheme = .ok (a.published ++ "withECDSA")) (alg : Alg) (cv : Curve) (hc : cv ∈ Curves.all E.k1name)
    [Fact cv.P.Prime] (G : Pt cv (curveA E.k1name cv)) (hG : xy G = (cv.Gx, cv.Gy)) (d : ℕ)
    (hd : ¬ d ≡ 0 [MOD cv.N]) (msg msg' : Bytes) (hm : msg' ≠ []) (r s : Int) (c : Option Curve)
    (h : verify E (.ec alg (keyAt G d)) msg (some ⟨scheme, .dsa r s c⟩) = .ok true) (k : ℕ)
    (hk : r.toNat * k + ECDSA.bits2int cv.N (E.hash a msg') ≡ ECDSA.bits2int cv.N (E.hash a msg) [MOD cv.N])
    (h0 : ¬ d + k ≡ 0 [MOD cv.N]) :
    verify E (.ec alg (keyAt G (d + k))) msg' (some ⟨scheme, .dsa r s c⟩) = .ok true := by
  refine C135_transfer E hE scheme scheme a a hname hname alg alg cv hc G hG d (d + k) hd h0 msg msg' hm r s c c h
    (.inl ?_)
  have := hk.add_left (r.toNat * d)
  rwa [← add_assoc, ← mul_add] at this

/-- **C135** for the compact signatures of secp256k1 keys: such a signature is accepted under one key only, for a
message and scheme. -/
theorem C135_compact (E : Signature.Ext) (scheme : Scheme) (hs : isECDSA scheme = true) (alg alg' : Alg)
    (pub pub' : ECPub) (msg : Bytes) (b : Buf)
    (h : verify E (.ec alg pub) msg (some ⟨scheme, .bytes b⟩) = .ok true)
    (h' : verify E (.ec alg' pub') msg (some ⟨scheme, .bytes b⟩) = .ok true) :
    (pub.x, pub.y) = (pub'.x, pub'.y) := by
  have key : ∀ {alg pub}, verify E (.ec alg pub) msg (some ⟨scheme, .bytes b⟩) = .ok true → ∃ h,
      hashOf scheme = some h ∧ E.recoverCompact b.data (E.hash h msg) = .ok (pub.x, pub.y) := by
    intro alg pub h
    have hm : ¬ msg.length = 0 := fun e => verify_message h (List.eq_nil_of_length_eq_zero e)
    unfold verify at h
    simp only [if_neg hm] at h
    cases hh : hashOf scheme with
    | none => rw [hh] at h; cases h
    | some a =>
      refine ⟨a, rfl, ?_⟩
      simp only [hh, hs, if_true, secp256k1Verify] at h
      cases hr : E.recoverCompact b.data (E.hash a msg) with
      | err m => rw [hr] at h; cases h
      | panic m => rw [hr] at h; cases h
      | ok p =>
        rw [hr] at h
        have := of_decide_eq_true (Res.ok.inj h)
        rw [← this.1, ← this.2]
  obtain ⟨k, k1, k2⟩ := key h
  obtain ⟨k', k1', k2'⟩ := key h'
  rw [k1] at k1'
  cases k1'
  rw [k2] at k2'
  exact Res.ok.inj k2'

/-- **C135** (partial) for SM2: when a signature is accepted for a message under two keys, then the digests, which
are hash values of strings that begin with a hash of the key, differ by the difference of two x-coordinates
that the signature and the keys determine.
Missing: that nobody finds such a hash value. -/
theorem C135_sm2_partial (E : SM2.Ext) (hE : E.Lawful) (H : Bytes → Bytes) (G : SM2.Point)
    (hG : xy G = (Curves.sm2.Gx, Curves.sm2.Gy)) (P P' : SM2.Point) (hP : P ≠ 0) (hP' : P' ≠ 0) (pub pub' : ECPub)
    (hc : pub.curve = Curves.sm2) (hc' : pub'.curve = Curves.sm2) (hpub : (pub.x, pub.y) = xy P)
    (hpub' : (pub'.x, pub'.y) = xy P') (id msg : Bytes) (r s : Int)
    (h : SM2.verify E H pub id msg r s = true) (h' : SM2.verify E H pub' id msg r s = true) :
    ∃ mz mz', SM2.getZ H msg pub id = .ok mz ∧ SM2.getZ H msg pub' id = .ok mz' ∧
      natOfBytes (H mz) + (xy (s.toNat • G + ((r + s) % SM2.n).toNat • P)).1 ≡
        natOfBytes (H mz') + (xy (s.toNat • G + ((r + s) % SM2.n).toNat • P')).1 [MOD SM2.n] := by
  obtain ⟨mz, e1, -, -, -, -, -, -, a⟩ := (C39_verify_iff E hE H G hG P hP pub hc hpub id msg r s).1 h
  obtain ⟨mz', e2, -, -, -, -, -, -, b⟩ := (C39_verify_iff E hE H G hG P' hP' pub' hc' hpub' id msg r s).1 h'
  refine ⟨mz, mz', e1, e2, ?_⟩
  have := a.trans b.symm
  unfold Nat.ModEq
  exact_mod_cast this

/-! ## C136: schemes -/

/-- **C136** (partial): when `(r, s)` is accepted for a message under one key with two schemes named XwithECDSA, then
the two digests are equal modulo the order; or there is an equation that determines the private key; or the
points computed in the two checks have different x-coordinates that are equal modulo the order. -/
theorem C136_ecdsa_partial (E : Signature.Ext) (hE : E.Lawful) (scheme scheme' : Scheme) (a a' : HashAlg)
    (hname : name scheme = .ok (a.published ++ "withECDSA")) (hname' : name scheme' = .ok (a'.published ++ "withECDSA"))
    (alg alg' : Alg) (cv : Curve) (hc : cv ∈ Curves.all E.k1name) [Fact cv.P.Prime]
    (G : Pt cv (curveA E.k1name cv)) (hG : xy G = (cv.Gx, cv.Gy)) (d : ℕ) (hd : ¬ d ≡ 0 [MOD cv.N])
    (msg : Bytes) (r s : Int) (c c' : Option Curve)
    (h : verify E (.ec alg (keyAt G d)) msg (some ⟨scheme, .dsa r s c⟩) = .ok true)
    (h' : verify E (.ec alg' (keyAt G d)) msg (some ⟨scheme', .dsa r s c'⟩) = .ok true) :
    let e := ECDSA.bits2int cv.N (E.hash a msg)
    let e' := ECDSA.bits2int cv.N (E.hash a' msg)
    e ≡ e' [MOD cv.N] ∨ (e + e' + 2 * r.toNat * d ≡ 0 [MOD cv.N] ∧ ¬ 2 * r.toNat ≡ 0 [MOD cv.N]) ∨
      ∃ w w' : ℕ, s.toNat * w % cv.N = 1 ∧ s.toNat * w' % cv.N = 1 ∧
        let R := (e * w) • G + (r.toNat * w) • d • G
        let R' := (e' * w') • G + (r.toNat * w') • d • G
        (xy R).1 ≠ (xy R').1 ∧ (xy R).1 ≡ (xy R').1 [MOD cv.N] := by
  have hg := good_of_mem E.k1name hE.k1name _ hc
  have hG0 : G ≠ 0 := hg.G_ne_zero hG
  have hd0 : d • G ≠ 0 := fun h0 => hd (by rw [← zero_smul ℕ G, hg.smul_eq_iff hG0] at h0; exact h0)
  obtain ⟨b, e1, e2⟩ := C72_ecdsa_standard E hE scheme a hname alg (keyAt G d) hc G (d • G) hG hd0 rfl msg
    (verify_message h) r s c
  obtain ⟨b', e1', e2'⟩ := C72_ecdsa_standard E hE scheme' a' hname' alg' (keyAt G d) hc G (d • G) hG hd0 rfl
    msg (verify_message h') r s c'
  rw [h] at e1
  rw [h'] at e1'
  cases e1
  cases e1'
  exact accepts_two hg hG0 (order_odd E hE hc) (e2.1 rfl) (e2'.1 rfl)

/-- **C136** is false: for any message and any two schemes named XwithECDSA under which the digests are different,
and not opposite, modulo the order, someone who chooses the key pair can make a signature that is accepted for
the message under both schemes. -/
theorem C136_two_schemes_fails (E : Signature.Ext) (hE : E.Lawful) (scheme scheme' : Scheme) (a a' : HashAlg)
    (hname : name scheme = .ok (a.published ++ "withECDSA")) (hname' : name scheme' = .ok (a'.published ++ "withECDSA"))
    (alg : Alg) (cv : Curve) (hc : cv ∈ Curves.all E.k1name)
    [Fact cv.P.Prime] (G : Pt cv (curveA E.k1name cv)) (hG : xy G = (cv.Gx, cv.Gy)) (msg : Bytes) (hm : msg ≠ [])
    (h1 : ¬ ECDSA.bits2int cv.N (E.hash a msg) ≡ ECDSA.bits2int cv.N (E.hash a' msg) [MOD cv.N])
    (h2 : ¬ ECDSA.bits2int cv.N (E.hash a msg) + ECDSA.bits2int cv.N (E.hash a' msg) ≡ 0 [MOD cv.N]) :
    ∃ d : ℕ, 0 < d ∧ d < cv.N ∧ ∃ r s : ℕ, ∀ c,
      verify E (.ec alg (keyAt G d)) msg (some ⟨scheme, .dsa r s c⟩) = .ok true ∧
        verify E (.ec alg (keyAt G d)) msg (some ⟨scheme', .dsa r s c⟩) = .ok true := by
  have hg := good_of_mem E.k1name hE.k1name _ hc
  have hG0 : G ≠ 0 := hg.G_ne_zero hG
  have key : ∀ nm, nm = "" ∨ nm = "secp256k1" → ∀ c ∈ Curves.all nm, c.Gx % c.N ≠ 0 := by
    rintro nm (rfl | rfl) <;> decide +kernel
  obtain ⟨d, r, s, d0, d1, a1, a2⟩ := accepts_both hg hG (order_odd E hE hc) (key _ hE.k1name _ hc) _ _ h1 h2
  have hd : d • G ≠ 0 := by
    rw [← zero_smul ℕ G, Ne, hg.smul_eq_iff hG0, Nat.mod_eq_of_lt d1, Nat.zero_mod]
    omega
  refine ⟨d, d0, d1, r, s, fun c => ?_⟩
  obtain ⟨b, e1, e2⟩ := C72_ecdsa_standard E hE scheme a hname alg (keyAt G d) hc G _ hG hd rfl msg hm r s c
  obtain ⟨b', e1', e2'⟩ := C72_ecdsa_standard E hE scheme' a' hname' alg (keyAt G d) hc G _ hG hd rfl msg hm r s c
  exact ⟨by rw [e1, e2.2 a1], by rw [e1', e2'.2 a2]⟩

/-! ## Non-vacuity -/

/-- The signature of C95's example has a second key, and so has an Ethereum signature (C135). -/
example : (match sign refSig 0 (zeros 80) 1 (.ec .ecdsa (keyOn Curves.p256 2)) abc .other with
    | some (.ok ⟨1, .dsa r s c⟩) =>
      verify refSig (.ec .ecdsa (keyOn Curves.p256 2).pub) abc (some ⟨1, .dsa r s c⟩) == .ok true &&
      decide ((r.toNat * 2 + 2 * ECDSA.bits2int Curves.p256.N (refSig.hash .sha256 abc)) % Curves.p256.N ≠ 0)
    | _ => false) = true := by decide +kernel

example : (match sign refSig 0 [] 11 (.eth (keyOn (Curves.secp256k1 "") 2)) abc (.bool true) with
    | some (.ok ⟨11, .bytes b⟩) =>
      verify refSig (.eth (keyOn (Curves.secp256k1 "") 2).pub) abc (some ⟨11, .bytes b⟩) == .ok true &&
      decide ((rOf (b.data ++ b.spare) * 2 + 2 * ECDSA.bits2int (Curves.secp256k1 "").N (refSig.hash .keccak256 abc)) %
        (Curves.secp256k1 "").N ≠ 0) && (refSig.hash .keccak256 abc).length == 32
    | _ => false) = true := by decide +kernel

/-- A compact signature that is accepted (C135). -/
example : ∃ b, verify refSig (.ec .ecdsa (keyOn (Curves.secp256k1 "") 5).pub) abc (some ⟨1, .bytes b⟩) = .ok true := by
  have h : (match sign refSig 1 (zeros 80) 1 (.ec .ecdsa (keyOn (Curves.secp256k1 "") 5)) abc .other with
    | some (.ok ⟨1, .bytes _⟩) => true
    | _ => false) = true := by decide +kernel
  split at h
  next b hs =>
    exact ⟨b, C33_sign_verify_partial refSig refSig_lawful 1 (zeros 80) 1
      (.ec .ecdsa (keyOn (Curves.secp256k1 "") 5)) (keyOn_pair _ (by decide) 5 (by decide +kernel)) abc .other _ hs (by decide) (by rintro ⟨⟨_, h⟩, -⟩; cases h)⟩
  next => cases h

/-- With a hash function that has one value only, an SM2 signature can be accepted under two keys, `G` and `-2 G`
(C135). -/
example : ∀ d ∈ [1, SM2.n - 2],
    SM2.verify refSM2 (fun _ => bytesOfNat 0x5680832a4c366c4b41d2557324be1db2d0c47391dc95e2e67152db176984a265)
      (keyOn Curves.sm2 d).pub [] abc 1 1 = true := by decide +kernel

/-- External parts in which the hash functions of two schemes differ (C136). -/
def refSigTwo : Signature.Ext :=
  { refSig with extHash := fun a m => if a = .sha256 then beFix 32 (natOfBytes m + 2) else beFix 32 (natOfBytes m + 1) }

theorem refSigTwo_lawful : refSigTwo.Lawful :=
  ⟨refSig_lawful.k1name, refSig_lawful.sm2, refSig_lawful.ecdsa_sign, refSig_lawful.ecdsa_verify,
    refSig_lawful.compact, refSig_lawful.compact_sound, refSig_lawful.ed_public, refSig_lawful.ed_sig,
    refSig_lawful.ed, refSig_lawful.eth_sign, refSig_lawful.eth_verify⟩

/-- Two schemes with digests that are neither equal nor opposite (C136). -/
example : name 1 = .ok (HashAlg.sha256.published ++ "withECDSA") ∧ name 3 = .ok (HashAlg.sha512.published ++ "withECDSA") ∧
    ¬ ECDSA.bits2int Curves.p256.N (refSigTwo.hash .sha256 abc) ≡
      ECDSA.bits2int Curves.p256.N (refSigTwo.hash .sha512 abc) [MOD Curves.p256.N] ∧
    ¬ ECDSA.bits2int Curves.p256.N (refSigTwo.hash .sha256 abc) +
      ECDSA.bits2int Curves.p256.N (refSigTwo.hash .sha512 abc) ≡ 0 [MOD Curves.p256.N] := by
  decide +kernel

end Verif.Props
